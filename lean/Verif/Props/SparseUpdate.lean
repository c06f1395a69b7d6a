import Verif.Proof.InPlace
import Mathlib.Algebra.Ring.Int.Defs
import Mathlib.Algebra.Field.Basic
import Mathlib.Algebra.GroupWithZero.Basic

/-!
# In-place updates of a sparse matrix: elimination and scaling (C09, C12)
-/

namespace Linalg
open Cpp

variable {α R : Type}

/-! ## Elimination -/

/-- **C09.**  `EliminateRow(index)`: the stored values of that row become 0, everything else is unchanged. -/
theorem C09_eliminateRow [Zero α] (A : Csr α) (hA : A.WF) (index : Int) (h0 : 0 ≤ index)
    (h1 : index < A.rows) :
    ∃ B, A.eliminateRow index = .ok B ∧ B.WF ∧
      A.UpdatedBy B (fun i _ v => if i = index then 0 else v) := by
  obtain ⟨n, rs, hn, hrs, rfl⟩ := hA.exists_rows
  have h1' : index < (rs.length : Int) := h1
  obtain ⟨B, hB, hwf, hu⟩ := upd_ofRows hn hrs
    (fun i j d => if i = index then wr d j 0 else .ok d) (fun i e => if i = index then 0 else e.2) (by
      intro t p ht hp hi d hd hv
      by_cases e : t.1 = index
      · simp only [e, if_true]; exact wr_nat (by omega)
      · simp only [e, if_false]; rw [set_getElem_self d p _ hv])
  refine ⟨B, ?_, hwf, hu⟩
  rw [← hB]
  unfold Csr.eliminateRow
  rw [cassert_true h0, cassert_true h1]
  simp only [ok_bind]
  congr 1
  -- only iteration `index` of the full loop does anything
  have hrow : ∀ i : Int, 0 ≤ i → i < (rs.length : Int) → ∀ d : List α,
      (Csr.ofRows n rs).forRow i d (fun j d => if i = index then wr d j 0 else .ok d)
      = if i = index then (Csr.ofRows n rs).forRow i d (fun j d => wr d j 0) else .ok d := by
    intro i hi0 hi1 d
    by_cases e : i = index
    · simp [e]
    · simp only [e, if_false]
      unfold Csr.forRow
      obtain ⟨k, rfl⟩ : ∃ k : Nat, i = (k : Int) := ⟨i.toNat, by omega⟩
      have e1 : rd (Csr.ofRows n rs).indptr (k : Int) = _ := rd_ptrs rs k (by omega)
      have e2 : rd (Csr.ofRows n rs).indptr ((k : Int) + 1) = _ := rd_ptrs_succ rs k (by omega)
      rw [e1, e2]
      simp only [ok_bind]
      exact forUp_id _ _ _
  have h2 : forUp 0 (Csr.ofRows n rs).rows (Csr.ofRows n rs).data
      (fun i d => (Csr.ofRows n rs).forRow i d (fun j d => if i = index then wr d j 0 else .ok d))
      = forUp 0 (rs.length : Int) (Csr.ofRows n rs).data
      (fun i d => if i = index then (Csr.ofRows n rs).forRow index d (fun j d => wr d j 0) else .ok d) := by
    apply forUp_congr
    intro i s hi0 hi1
    rw [hrow i hi0 hi1]
    by_cases e : i = index
    · simp [e]
    · simp [e]
  rw [h2]
  exact (forUp_single h0 h1' (Csr.ofRows n rs).data
    (fun d => (Csr.ofRows n rs).forRow index d (fun j d => wr d j 0))).symm

/-- **C09.**  After `EliminateRow(index)` row `index` is zero and all other coefficients are unchanged. -/
theorem C09_eliminateRow_coef [AddMonoid R] (A : Csr R) (hA : A.WF) (index : Int) (h0 : 0 ≤ index)
    (h1 : index < A.rows) :
    ∃ B, A.eliminateRow index = .ok B ∧
      ∀ i j, B.coef i j = if i = index then 0 else A.coef i j := by
  obtain ⟨B, hB, -, hu⟩ := C09_eliminateRow A hA index h0 h1
  refine ⟨B, hB, ?_⟩
  intro i j
  by_cases e : i = index
  · rw [hu.coef i j (0 : R →+ R) (by intro v _; simp [e]), if_pos e]; rfl
  · rw [hu.coef i j (AddMonoidHom.id R) (by intro v _; simp [e]), if_neg e]; rfl

/-- **C09.**  `EliminateCol(index)`: the stored values of that column become 0, everything else is
unchanged. -/
theorem C09_eliminateCol [Zero α] (A : Csr α) (hA : A.WF) (index : Int) (h0 : 0 ≤ index)
    (h1 : index < A.cols) :
    ∃ B, A.eliminateCol index = .ok B ∧ B.WF ∧
      A.UpdatedBy B (fun _ j v => if j = index then 0 else v) := by
  obtain ⟨n, rs, hn, hrs, rfl⟩ := hA.exists_rows
  unfold Csr.eliminateCol
  rw [cassert_true h0, cassert_true (Or.inl h1)]
  simp only [ok_bind]
  refine upd_ofRows hn hrs _ (fun _ e => if e.1 = index then 0 else e.2) ?_
  intro t p ht hp hi d hd hv
  rw [hi]
  simp only [ok_bind]
  by_cases e : t.2.1 = index
  · simp only [e, if_true]; exact wr_nat (by omega)
  · simp only [e, if_false]; rw [set_getElem_self d p _ hv]

/-- **C09.**  After `EliminateCol(index)` column `index` is zero and all other coefficients are unchanged. -/
theorem C09_eliminateCol_coef [AddMonoid R] (A : Csr R) (hA : A.WF) (index : Int) (h0 : 0 ≤ index)
    (h1 : index < A.cols) :
    ∃ B, A.eliminateCol index = .ok B ∧
      ∀ i j, B.coef i j = if j = index then 0 else A.coef i j := by
  obtain ⟨B, hB, -, hu⟩ := C09_eliminateCol A hA index h0 h1
  refine ⟨B, hB, ?_⟩
  intro i j
  by_cases e : j = index
  · rw [hu.coef i j (0 : R →+ R) (by intro v _; simp [e]), if_pos e]; rfl
  · rw [hu.coef i j (AddMonoidHom.id R) (by intro v _; simp [e]), if_neg e]; rfl

/-- Whether index `i` is marked. -/
def marked (marker : List Bool) (i : Int) : Prop := 0 ≤ i ∧ marker.getD i.toNat false = true

instance (marker : List Bool) (i : Int) : Decidable (marked marker i) :=
  inferInstanceAs (Decidable (_ ∧ _))

theorem rd_marker {marker : List Bool} {i : Int} (h0 : 0 ≤ i) (h1 : i < marker.length) :
    rd marker i = .ok (decide (marked marker i)) := by
  rw [rd_int h0 h1]
  congr 1
  have : marker.getD i.toNat false = marker[i.toNat]'(by omega) := by
    rw [List.getD_eq_getElem?_getD, List.getElem?_eq_getElem (by omega)]; rfl
  simp only [marked, h0, true_and, this, Bool.decide_eq_true]

/-- **C09.**  `EliminateCol(marker)`: the stored values of all marked columns become 0, everything else is
unchanged. -/
theorem C09_eliminateColMarker [Zero α] (A : Csr α) (hA : A.WF) (marker : List Bool)
    (hm : A.cols ≤ marker.length) :
    ∃ B, A.eliminateColMarker marker = .ok B ∧ B.WF ∧
      A.UpdatedBy B (fun _ j v => if marked marker j then 0 else v) := by
  obtain ⟨n, rs, hn, hrs, rfl⟩ := hA.exists_rows
  have hm' : n ≤ marker.length := hm
  unfold Csr.eliminateColMarker
  rw [cassert_true hm]
  simp only [ok_bind]
  refine upd_ofRows hn hrs _ (fun _ e => if marked marker e.1 then 0 else e.2) ?_
  intro t p ht hp hi d hd hv
  have hc := (triplesL_ok hrs t ht).2
  rw [hi]
  simp only [ok_bind]
  rw [rd_marker hc.1 (by omega)]
  simp only [ok_bind]
  by_cases e : marked marker t.2.1
  · simp only [e, decide_true, if_true]; exact wr_nat (by omega)
  · simp only [e, decide_false, if_false, Bool.false_eq_true]; rw [set_getElem_self d p _ hv]

/-- **C09.**  After `EliminateCol(marker)` marked columns are zero, other coefficients unchanged. -/
theorem C09_eliminateColMarker_coef [AddMonoid R] (A : Csr R) (hA : A.WF) (marker : List Bool)
    (hm : A.cols ≤ marker.length) :
    ∃ B, A.eliminateColMarker marker = .ok B ∧
      ∀ i j, B.coef i j = if marked marker j then 0 else A.coef i j := by
  obtain ⟨B, hB, -, hu⟩ := C09_eliminateColMarker A hA marker hm
  refine ⟨B, hB, ?_⟩
  intro i j
  by_cases e : marked marker j
  · rw [hu.coef i j (0 : R →+ R) (by intro v _; simp [e]), if_pos e]; rfl
  · rw [hu.coef i j (AddMonoidHom.id R) (by intro v _; simp [e]), if_neg e]; rfl

/-- **C09.**  `EliminateRowCol(index)`: values stored in that row or column become 0, or 1 on the diagonal;
everything else is unchanged. -/
theorem C09_eliminateRowCol [Zero α] [One α] (A : Csr α) (hA : A.WF) (index : Int) (h0 : 0 ≤ index)
    (h1 : index < A.rows) (h2 : index < A.cols) :
    ∃ B, A.eliminateRowCol index = .ok B ∧ B.WF ∧
      A.UpdatedBy B (fun i j v => if i = index ∨ j = index then (if i = j then 1 else 0) else v) := by
  obtain ⟨n, rs, hn, hrs, rfl⟩ := hA.exists_rows
  unfold Csr.eliminateRowCol
  rw [cassert_true h0, cassert_true h1, cassert_true h2]
  simp only [ok_bind]
  refine upd_ofRows hn hrs _
    (fun i e => if i = index ∨ e.1 = index then (if i = e.1 then 1 else 0) else e.2) ?_
  intro t p ht hp hi d hd hv
  rw [hi]
  simp only [ok_bind]
  by_cases e : t.1 = index ∨ t.2.1 = index
  · simp only [e, if_true]
    rw [wr_nat (by omega)]
    simp only [eq_comm]
  · simp only [e, if_false]; rw [set_getElem_self d p _ hv]

/-- **C09.**  `EliminateRowCol(marker)`: values stored in marked rows or columns become 0, or 1 on the
diagonal; everything else is unchanged. -/
theorem C09_eliminateRowColMarker [Zero α] [One α] (A : Csr α) (hA : A.WF) (marker : List Bool)
    (hsq : A.rows = A.cols) (hm : A.cols ≤ marker.length) :
    ∃ B, A.eliminateRowColMarker marker = .ok B ∧ B.WF ∧
      A.UpdatedBy B (fun i j v =>
        if marked marker i ∨ marked marker j then (if i = j then 1 else 0) else v) := by
  obtain ⟨n, rs, hn, hrs, rfl⟩ := hA.exists_rows
  have hm' : n ≤ marker.length := hm
  have hsq' : (rs.length : Int) = n := hsq
  unfold Csr.eliminateRowColMarker
  rw [cassert_true hsq, cassert_true hm]
  simp only [ok_bind]
  refine upd_ofRows hn hrs _
    (fun i e => if marked marker i ∨ marked marker e.1 then (if i = e.1 then 1 else 0) else e.2) ?_
  intro t p ht hp hi d hd hv
  have hc := triplesL_ok hrs t ht
  rw [hi]
  simp only [ok_bind]
  rw [rd_marker hc.1.1 (by omega), rd_marker hc.2.1 (by omega)]
  simp only [ok_bind]
  by_cases e1 : marked marker t.1
  · simp only [e1, decide_true, if_true, true_or]; exact wr_nat (by omega)
  · by_cases e2 : marked marker t.2.1
    · simp only [e1, e2, decide_false, decide_true, if_false, if_true, Bool.false_eq_true, or_true]
      exact wr_nat (by omega)
    · simp only [e1, e2, decide_false, if_false, Bool.false_eq_true, or_false]
      rw [set_getElem_self d p _ hv]

/-- **C09.**  Coefficients after `EliminateRowCol(marker)`: outside marked rows and columns nothing changes,
inside them everything off the diagonal is zero, and a diagonal coefficient that was stored (once) is 1. -/
theorem C09_eliminateRowColMarker_coef [NonAssocSemiring R] (A : Csr R) (hA : A.WF)
    (marker : List Bool) (hsq : A.rows = A.cols) (hm : A.cols ≤ marker.length) :
    ∃ B, A.eliminateRowColMarker marker = .ok B ∧
      (∀ i j, ¬ (marked marker i ∨ marked marker j) → B.coef i j = A.coef i j) ∧
      (∀ i j, (marked marker i ∨ marked marker j) → i ≠ j → B.coef i j = 0) ∧
      (∀ i, marked marker i → ((A.row i).map Prod.fst).count i = 1 → B.coef i i = 1) ∧
      (∀ i, marked marker i → ((A.row i).map Prod.fst).count i = 0 → B.coef i i = 0) := by
  obtain ⟨B, hB, -, hu⟩ := C09_eliminateRowColMarker A hA marker hsq hm
  refine ⟨B, hB, ?_, ?_, ?_, ?_⟩
  · intro i j h
    rw [hu.coef i j (AddMonoidHom.id R) (by intro v _; simp only [if_neg h]; rfl)]; rfl
  · intro i j h hij
    rw [hu.coef i j (0 : R →+ R) (by intro v _; simp [h, hij])]; rfl
  all_goals
    intro i h hc
    rw [Csr.coef_eq, hu.row_eq]
    have hones : ∀ r : List (Int × R), rowCoef (r.map (fun e => (e.1,
        if marked marker i ∨ marked marker e.1 then (if i = e.1 then (1 : R) else 0) else e.2))) i
        = (((r.map Prod.fst).count i : Nat) : R) := by
      intro r
      induction r with
      | nil => simp
      | cons e r ih =>
        rw [List.map_cons, rowCoef_cons, ih]
        by_cases he : e.1 = i
        · have : (e :: r).map Prod.fst = i :: r.map Prod.fst := by simp [he]
          rw [this, List.count_cons_self]
          simp [he, h, add_comm]
        · have : ((e :: r).map Prod.fst).count i = (r.map Prod.fst).count i := by
            rw [List.map_cons, List.count_cons_of_ne he]
          rw [this]; simp [he]
    rw [hones, hc]; simp

/-- **C09.**  `EliminateCol(marker, x, b)`: besides zeroing the marked columns, `b[i]` becomes
`b[i] - Σ_{marked j} A(i,j) x[j]`. -/
theorem C09_eliminateColRhs [Ring R] [DecidableEq R] (A : Csr R) (hA : A.WF) (marker : List Bool)
    (x b : List R) (hm : A.cols ≤ marker.length) (hx : A.cols ≤ x.length) (hb : A.rows ≤ b.length) :
    ∃ B b', A.eliminateColRhs marker x b = .ok (B, b') ∧ B.WF ∧ b'.length = b.length ∧
      A.UpdatedBy B (fun _ j v => if marked marker j then 0 else v) ∧
      (∀ i, 0 ≤ i → i < A.rows → rd b' i = .ok (vecAt b i -
        ∑ j ∈ Finset.Ico 0 A.cols, A.coef i j * (if marked marker j then vecAt x j else 0))) ∧
      (∀ i, A.rows ≤ i → i < b.length → rd b' i = rd b i) := by
  obtain ⟨n, rs, hn, hrs, rfl⟩ := hA.exists_rows
  have hm' : n ≤ marker.length := hm
  have hx' : n ≤ x.length := hx
  have hb' : (rs.length : Int) ≤ b.length := hb
  unfold Csr.eliminateColRhs
  rw [cassert_true hm]
  simp only [ok_bind]
  have hloop : forUp 0 (Csr.ofRows n rs).rows ((Csr.ofRows n rs).data, b) (fun row st =>
      (Csr.ofRows n rs).forRow row st (fun j st => do
        let c ← rd (Csr.ofRows n rs).indices j
        let m ← rd marker c
        let d ← rd st.1 j
        if m = true ∧ d ≠ 0 then
          let xv ← vrd x c
          let old ← vrd st.2 row
          let b ← vwr st.2 row (old - d * xv)
          let data ← wr st.1 j 0
          .ok (data, b)
        else .ok st))
      = ((triplesL rs).foldlM (fun (b : List R) t => (if marked marker t.2.1 ∧ t.2.2 ≠ 0 then do
          let old ← vrd b t.1
          vwr b t.1 (old - t.2.2 * vecAt x t.2.1)
        else .ok b : Res (List R))) b >>= fun b' =>
        .ok ((triplesL rs).map (fun t => if marked marker t.2.1 then 0 else t.2.2), b')) := by
    rw [rowLoop_pos]
    have e : (Csr.ofRows n rs).data = (triplesL rs).map (fun t => t.2.2) := by
      simp only [Csr.ofRows, ← triplesL_map_snd rs, List.map_map, Function.comp_def]
    rw [e]
    apply foldlM_zipIdx_set2
    intro p hp d s hd hv
    have hmem : (triplesL rs)[p] ∈ triplesL rs := List.getElem_mem hp
    have hi : rd (Csr.ofRows n rs).indices (p : Int) = .ok (triplesL rs)[p].2.1 := by
      rw [rd_eq_ok]
      refine ⟨by omega, ?_⟩
      simp only [Csr.ofRows, ← triplesL_map_snd rs, Int.toNat_natCast]
      simp [hp]
    have hdp : rd d (p : Int) = .ok (triplesL rs)[p].2.2 := by
      rw [rd_eq_ok]; exact ⟨by omega, by simpa using hv⟩
    generalize (triplesL rs)[p] = t at hmem hi hdp
    have hc := (triplesL_ok hrs t hmem).2
    simp only [hi, ok_bind, rd_marker hc.1 (by omega : t.2.1 < (marker.length : Int)), hdp,
      decide_eq_true_eq]
    by_cases e1 : marked marker t.2.1
    · by_cases e2 : t.2.2 = 0
      · simp only [e1, e2, ne_eq, not_true_eq_false, and_false, if_false, if_true, ok_bind]
        rw [set_getElem_self d p 0 (by rw [← e2]; exact hdp)]
      · simp only [e1, e2, ne_eq, not_false_eq_true, and_true, if_true]
        rw [vrd_vecAt x hc.1 (by omega)]
        simp only [ok_bind, bind_assoc]
        congr 1
        funext old
        congr 1
        funext b'
        rw [wr_nat (by omega)]
        rfl
    · simp only [e1, false_and, if_false, ok_bind]
      rw [set_getElem_self d p _ hdp]
  rw [hloop]
  obtain ⟨b2, hb1, hb2, hb3⟩ := foldlM_inv (l := triplesL rs)
    (f := fun (b : List R) t => (if marked marker t.2.1 ∧ t.2.2 ≠ 0 then do
          let old ← vrd b t.1
          vwr b t.1 (old - t.2.2 * vecAt x t.2.1)
        else .ok b : Res (List R)))
    (fun pre (b' : List R) => b'.length = b.length ∧ ∀ k < b.length, b'[k]? = some (vecAt b (k : Int) -
      (pre.map (fun t => if t.1 = (k : Int) ∧ marked marker t.2.1 then t.2.2 * vecAt x t.2.1
        else 0)).sum)) (s := b)
    ⟨rfl, by
      intro k hk
      rw [vecAt_nat b k hk, List.getElem?_eq_getElem hk]; simp⟩ (by
      intro pre t post b' hl ⟨hl1, hl2⟩
      have hmem : t ∈ triplesL rs := by rw [hl]; simp
      have hc := (triplesL_ok hrs t hmem)
      by_cases e : marked marker t.2.1 ∧ t.2.2 ≠ 0
      · rw [if_pos e]
        obtain ⟨q, hq⟩ : ∃ q : Nat, t.1 = (q : Int) := ⟨t.1.toNat, by omega⟩
        have hqb : q < b.length := by omega
        rw [hq, vrd_nat (by omega)]
        simp only [ok_bind]
        refine ⟨_, vwr_nat (by omega), by simp [hl1], ?_⟩
        intro k hk
        rw [List.getElem?_set, List.map_append, List.sum_append]
        by_cases ek : q = k
        · subst ek
          have := hl2 q hk
          rw [List.getElem?_eq_getElem (by omega)] at this
          rw [if_pos rfl, if_pos (by omega), Option.some.inj this]
          simp [hq, e.1, sub_sub]
        · rw [if_neg ek, hl2 k hk]
          have : ¬ ((q : Int) = (k : Int)) := by omega
          simp [hq, this]
      · rw [if_neg e]
        refine ⟨_, rfl, hl1, ?_⟩
        intro k hk
        rw [hl2 k hk, List.map_append, List.sum_append]
        have : (if t.1 = (k : Int) ∧ marked marker t.2.1 then t.2.2 * vecAt x t.2.1 else 0) = 0 := by
          by_cases e3 : t.1 = (k : Int) ∧ marked marker t.2.1
          · rw [if_pos e3]
            have : t.2.2 = 0 := by by_contra hne; exact e ⟨e3.2, hne⟩
            rw [this, zero_mul]
          · rw [if_neg e3]
        simp [this])
  rw [hb1]
  simp only [ok_bind]
  have hdata : { Csr.ofRows n rs with
        data := (triplesL rs).map (fun t => if marked marker t.2.1 then 0 else t.2.2) }
      = Csr.ofRows n (mapRows (fun _ e => if marked marker e.1 then 0 else e.2) rs) := by
    rw [ofRows_mapRows]; rfl
  refine ⟨_, _, rfl, ?_, hb2, ?_, ?_, ?_⟩
  · rw [hdata]; exact Csr.wf_ofRows hn (mapRows_ok hrs)
  · rw [hdata]; exact updatedBy_mapRows n rs _
  · intro i h0 h1
    have h1' : i < (rs.length : Int) := h1
    obtain ⟨k, rfl⟩ : ∃ k : Nat, i = (k : Int) := ⟨i.toNat, by omega⟩
    rw [rd_eq_ok]
    refine ⟨h0, ?_⟩
    rw [Int.toNat_natCast, hb3 k (by omega)]
    congr 2
    have hs := sum_triplesL rs (fun i e => if i = (k : Int) ∧ marked marker e.1 then e.2 * vecAt x e.1
      else (0 : R))
    rw [hs, Finset.sum_eq_single (k : Int)]
    · have := sum_row_eq (r := rs.getD k []) (n := n) (by
        rw [List.getD_eq_getElem?_getD, List.getElem?_eq_getElem (by omega)]
        exact hrs _ (List.getElem_mem _)) (fun c => if marked marker c then vecAt x c else 0)
      simp only [true_and, Int.toNat_natCast]
      simp only [coef_ofRows_getD n rs h0, Int.toNat_natCast]
      refine Eq.trans ?_ this
      congr 1
      apply List.map_congr_left
      intro e _
      split <;> simp
    · intro i' _ hne
      have : ∀ l : List (Int × R), (l.map (fun e => if i' = (k : Int) ∧ marked marker e.1
          then e.2 * vecAt x e.1 else (0 : R))).sum = 0 := by
        intro l; simp [hne]
      exact this _
    · intro hnot
      exact absurd (Finset.mem_Ico.mpr ⟨h0, h1'⟩) hnot
  · intro i h0 h1
    have h0' : (rs.length : Int) ≤ i := h0
    obtain ⟨k, rfl⟩ : ∃ k : Nat, i = (k : Int) := ⟨i.toNat, by omega⟩
    have hk : k < b.length := by omega
    rw [rd_nat hk, rd_eq_ok]
    refine ⟨by omega, ?_⟩
    rw [Int.toNat_natCast, hb3 k hk, vecAt_nat b k hk]
    congr 1
    have : (triplesL rs).map (fun t => if t.1 = (k : Int) ∧ marked marker t.2.1 then t.2.2 * vecAt x t.2.1
        else (0 : R)) = (triplesL rs).map (fun _ => 0) := by
      apply List.map_congr_left
      intro t ht
      have := (triplesL_ok hrs t ht).1
      rw [if_neg (by omega)]
    rw [this]; simp

/-- **C09.**  The modified system has the same residual at every vector that agrees with `x` on the marked
columns: in particular a solution of `A y = b` with the prescribed marked values still solves it. -/
theorem C09_eliminateColRhs_residual [Ring R] [DecidableEq R] (A : Csr R) (hA : A.WF)
    (marker : List Bool) (x b y : List R) (hm : A.cols ≤ marker.length) (hx : A.cols ≤ x.length)
    (hb : A.rows ≤ b.length) (hy : ∀ j, marked marker j → vecAt y j = vecAt x j) :
    ∃ B b', A.eliminateColRhs marker x b = .ok (B, b') ∧
      ∀ i, 0 ≤ i → i < A.rows →
        B.mulVec y i - vecAt b' i = A.mulVec y i - vecAt b i := by
  obtain ⟨B, b', h1, -, hl, hu, h2, -⟩ := C09_eliminateColRhs A hA marker x b hm hx hb
  refine ⟨B, b', h1, ?_⟩
  intro i h0 hi
  have e := h2 i h0 hi
  rw [rd_vecAt b' h0 (by omega)] at e
  rw [Except.ok.inj e]
  unfold Csr.mulVec
  rw [hu.cols_eq]
  have hB : ∀ j, B.coef i j = if marked marker j then 0 else A.coef i j := by
    intro j
    by_cases e : marked marker j
    · rw [hu.coef i j (0 : R →+ R) (by intro v _; simp [e]), if_pos e]; rfl
    · rw [hu.coef i j (AddMonoidHom.id R) (by intro v _; simp [e]), if_neg e]; rfl
  have hs : ∑ j ∈ Finset.Ico 0 A.cols, A.coef i j * vecAt y j
      = ∑ j ∈ Finset.Ico 0 A.cols, B.coef i j * vecAt y j
      + ∑ j ∈ Finset.Ico 0 A.cols, A.coef i j * (if marked marker j then vecAt x j else 0) := by
    rw [← Finset.sum_add_distrib]
    apply Finset.sum_congr rfl
    intro j _
    rw [hB]
    by_cases e : marked marker j
    · simp [e, hy j e]
    · simp [e]
  rw [hs]; abel

/-- A 3×3 matrix with a duplicate diagonal entry, and a marker. -/
def exE : Csr Int := ⟨3, 3, [0, 3, 4, 6], [0, 2, 1, 1, 0, 2], [5, 6, 7, 8, 9, 4]⟩

example : exE.WF ∧ marked [false, true, false] 1 ∧ ¬ marked [false, true, false] 0 := by decide

example : exE.eliminateColRhs [false, true, false] [1, 2, 3] [10, 20, 30]
    = .ok (⟨3, 3, [0, 3, 4, 6], [0, 2, 1, 1, 0, 2], [5, 6, 0, 0, 9, 4]⟩, [-4, 4, 30]) := by decide

example : exE.eliminateRowColMarker [false, true, false]
    = .ok ⟨3, 3, [0, 3, 4, 6], [0, 2, 1, 1, 0, 2], [5, 6, 0, 1, 9, 4]⟩ := by decide

/-! ## Scaling -/

/-- **C12.**  `ScaleRows(d)` multiplies every stored value of row `i` by `d[i]`. -/
theorem C12_scaleRows [MulZeroClass α] (A : Csr α) (hA : A.WF) (d : List α)
    (hd : (d.length : Int) = A.rows) :
    ∃ B, A.scaleRows d = .ok B ∧ B.WF ∧ A.UpdatedBy B (fun i _ v => v * vecAt d i) := by
  obtain ⟨n, rs, hn, hrs, rfl⟩ := hA.exists_rows
  unfold Csr.scaleRows
  rw [cassert_true hd]
  simp only [ok_bind]
  have hd' : (d.length : Int) = (rs.length : Int) := hd
  have hl : ∀ data : List α, forUp 0 (Csr.ofRows n rs).rows data (fun i data => do
      let s ← rd d i
      (Csr.ofRows n rs).forRow i data (fun j data => do
        let x ← rd data j
        wr data j (x * s)))
      = forUp 0 (Csr.ofRows n rs).rows data (fun i data =>
      (Csr.ofRows n rs).forRow i data (fun j data => do
        let x ← rd data j
        wr data j (x * vecAt d i))) := by
    intro data
    apply forUp_congr
    intro i s h0 h1
    have h1' : i < (rs.length : Int) := h1
    rw [rd_vecAt d h0 (by omega)]
    rfl
  rw [hl]
  refine upd_ofRows hn hrs (fun i j data => do
        let x ← rd data j
        wr data j (x * vecAt d i)) (fun i e => e.2 * vecAt d i) ?_
  intro t p ht hp hi dd hdd hv
  simp only [hv, ok_bind]
  exact wr_nat (by omega)

/-- **C12.**  `ScaleRows(d)` makes `A(i,j) := A(i,j) * d[i]`. -/
theorem C12_scaleRows_coef [NonUnitalNonAssocSemiring R] (A : Csr R) (hA : A.WF) (d : List R)
    (hd : (d.length : Int) = A.rows) :
    ∃ B, A.scaleRows d = .ok B ∧ ∀ i j, B.coef i j = A.coef i j * vecAt d i := by
  obtain ⟨B, hB, -, hu⟩ := C12_scaleRows A hA d hd
  exact ⟨B, hB, fun i j => by rw [hu.coef i j (AddMonoidHom.mulRight (vecAt d i)) (fun _ _ => rfl)]; rfl⟩

/-- **C12.**  `ScaleCols(d)` multiplies every stored value of column `j` by `d[j]`. -/
theorem C12_scaleCols [MulZeroClass α] (A : Csr α) (hA : A.WF) (d : List α)
    (hd : (d.length : Int) = A.cols) :
    ∃ B, A.scaleCols d = .ok B ∧ B.WF ∧ A.UpdatedBy B (fun _ j v => v * vecAt d j) := by
  obtain ⟨n, rs, hn, hrs, rfl⟩ := hA.exists_rows
  have hd' : (d.length : Int) = n := hd
  unfold Csr.scaleCols
  rw [cassert_true hd]
  simp only [ok_bind]
  refine upd_ofRows hn hrs _ (fun _ e => e.2 * vecAt d e.1) ?_
  intro t p ht hp hi dd hdd hv
  have hc := (triplesL_ok hrs t ht).2
  simp only [hv, hi, ok_bind]
  rw [rd_vecAt d hc.1 (by omega)]
  simp only [ok_bind]
  exact wr_nat (by omega)

/-- **C12.**  `ScaleCols(d)` makes `A(i,j) := A(i,j) * d[j]`. -/
theorem C12_scaleCols_coef [NonUnitalNonAssocSemiring R] (A : Csr R) (hA : A.WF) (d : List R)
    (hd : (d.length : Int) = A.cols) :
    ∃ B, A.scaleCols d = .ok B ∧ ∀ i j, B.coef i j = A.coef i j * vecAt d j := by
  obtain ⟨B, hB, -, hu⟩ := C12_scaleCols A hA d hd
  exact ⟨B, hB, fun i j => by rw [hu.coef i j (AddMonoidHom.mulRight (vecAt d j)) (fun _ _ => rfl)]; rfl⟩

/-- **C12.**  `InverseScaleRows(d)`, with no zero in `d`, divides every stored value of row `i` by `d[i]`. -/
theorem C12_inverseScaleRows [DivisionRing α] [DecidableEq α] (A : Csr α) (hA : A.WF) (d : List α)
    (hd : (d.length : Int) = A.rows) (hnz : ∀ x ∈ d, x ≠ 0) :
    ∃ B, A.inverseScaleRows d = .ok B ∧ B.WF ∧ A.UpdatedBy B (fun i _ v => v / vecAt d i) := by
  obtain ⟨n, rs, hn, hrs, rfl⟩ := hA.exists_rows
  unfold Csr.inverseScaleRows
  rw [cassert_true hd]
  simp only [ok_bind]
  have hd' : (d.length : Int) = (rs.length : Int) := hd
  have hl : ∀ data : List α, forUp 0 (Csr.ofRows n rs).rows data (fun i data => do
      let s ← rd d i
      cassert (s ≠ 0)
      (Csr.ofRows n rs).forRow i data (fun j data => do
        let x ← rd data j
        wr data j (x / s)))
      = forUp 0 (Csr.ofRows n rs).rows data (fun i data =>
      (Csr.ofRows n rs).forRow i data (fun j data => do
        let x ← rd data j
        wr data j (x / vecAt d i))) := by
    intro data
    apply forUp_congr
    intro i s h0 h1
    have h1' : i < (rs.length : Int) := h1
    rw [rd_vecAt d h0 (by omega)]
    simp only [ok_bind]
    rw [cassert_true (by rw [vecAt_int d h0 (by omega)]; exact hnz _ (List.getElem_mem _))]
    rfl
  rw [hl]
  refine upd_ofRows hn hrs (fun i j data => do
        let x ← rd data j
        wr data j (x / vecAt d i)) (fun i e => e.2 / vecAt d i) ?_
  intro t p ht hp hi dd hdd hv
  simp only [hv, ok_bind]
  exact wr_nat (by omega)

/-- **C12.**  `InverseScaleCols(d)`, with no zero in `d`, divides every stored value of column `j` by
`d[j]`. -/
theorem C12_inverseScaleCols [DivisionRing α] [DecidableEq α] (A : Csr α) (hA : A.WF) (d : List α)
    (hd : (d.length : Int) = A.cols) (hnz : ∀ x ∈ d, x ≠ 0) :
    ∃ B, A.inverseScaleCols d = .ok B ∧ B.WF ∧ A.UpdatedBy B (fun _ j v => v / vecAt d j) := by
  obtain ⟨n, rs, hn, hrs, rfl⟩ := hA.exists_rows
  have hd' : (d.length : Int) = n := hd
  unfold Csr.inverseScaleCols
  rw [cassert_true hd]
  simp only [ok_bind]
  refine upd_ofRows hn hrs _ (fun _ e => e.2 / vecAt d e.1) ?_
  intro t p ht hp hi dd hdd hv
  have hc := (triplesL_ok hrs t ht).2
  simp only [hv, hi, ok_bind]
  rw [rd_vecAt d hc.1 (by omega)]
  simp only [ok_bind]
  rw [cassert_true (by rw [vecAt_int d hc.1 (by omega)]; exact hnz _ (List.getElem_mem _))]
  simp only [ok_bind]
  exact wr_nat (by omega)

/-- **C12.**  Scaling the rows and then scaling them back restores the matrix, array for array. -/
theorem C12_scaleRows_inverse [DivisionRing α] [DecidableEq α] (A : Csr α) (hA : A.WF) (d : List α)
    (hd : (d.length : Int) = A.rows) (hnz : ∀ x ∈ d, x ≠ 0) :
    ∃ B, A.scaleRows d = .ok B ∧ B.inverseScaleRows d = .ok A := by
  obtain ⟨B, hB, hBw, hu⟩ := C12_scaleRows A hA d hd
  obtain ⟨C, hC, hCw, hu'⟩ := C12_inverseScaleRows B hBw d (by rw [hu.rows_eq, hd]) hnz
  refine ⟨B, hB, ?_⟩
  rw [hC]
  congr 1
  apply Csr.ext_rows hCw hA (by rw [hu'.rows_eq, hu.rows_eq]) (by rw [hu'.cols_eq, hu.cols_eq])
  intro i hi0 hi1
  rw [hu'.row_eq, hu.row_eq, List.map_map]
  conv_rhs => rw [← List.map_id (A.row i)]
  apply List.map_congr_left
  intro e _
  have : vecAt d i ≠ 0 := by
    rw [vecAt_int d hi0 (by omega)]; exact hnz _ (List.getElem_mem _)
  simp [mul_div_cancel_right₀ _ this]

/-- **C12.**  Scaling the columns and then scaling them back restores the matrix, array for array. -/
theorem C12_scaleCols_inverse [DivisionRing α] [DecidableEq α] (A : Csr α) (hA : A.WF) (d : List α)
    (hd : (d.length : Int) = A.cols) (hnz : ∀ x ∈ d, x ≠ 0) :
    ∃ B, A.scaleCols d = .ok B ∧ B.inverseScaleCols d = .ok A := by
  obtain ⟨B, hB, hBw, hu⟩ := C12_scaleCols A hA d hd
  obtain ⟨C, hC, hCw, hu'⟩ := C12_inverseScaleCols B hBw d (by rw [hu.cols_eq, hd]) hnz
  refine ⟨B, hB, ?_⟩
  rw [hC]
  congr 1
  apply Csr.ext_rows hCw hA (by rw [hu'.rows_eq, hu.rows_eq]) (by rw [hu'.cols_eq, hu.cols_eq])
  intro i hi0 hi1
  rw [hu'.row_eq, hu.row_eq, List.map_map]
  conv_rhs => rw [← List.map_id (A.row i)]
  apply List.map_congr_left
  intro e he
  have hc := (Csr.mem_row_ok hA he).2.2
  have : vecAt d e.1 ≠ 0 := by
    rw [vecAt_int d hc.1 (by omega)]; exact hnz _ (List.getElem_mem _)
  simp [mul_div_cancel_right₀ _ this]

/-- **C12.**  The overloads taking a sparse matrix scale by the stored values of a diagonal matrix built from
a vector. -/
theorem C12_scale_by_diagonal_matrix [MulZeroClass α] (A : Csr α) (d : List α) :
    A.scaleRowsMat (Csr.ofDiag d) = A.scaleRows d ∧ A.scaleColsMat (Csr.ofDiag d) = A.scaleCols d :=
  ⟨rfl, rfl⟩

/-- **C12.**  The inverse overloads likewise. -/
theorem C12_inverseScale_by_diagonal_matrix [DivisionRing α] [DecidableEq α] (A : Csr α) (d : List α) :
    A.inverseScaleRowsMat (Csr.ofDiag d) = A.inverseScaleRows d ∧
      A.inverseScaleColsMat (Csr.ofDiag d) = A.inverseScaleCols d :=
  ⟨rfl, rfl⟩

/-- **C12.**  Wrong lengths are rejected by an assertion. -/
theorem C12_scale_rejects [MulZeroClass α] (A : Csr α) (d : List α) :
    ((d.length : Int) ≠ A.rows → A.scaleRows d = .error .assertFail) ∧
    ((d.length : Int) ≠ A.cols → A.scaleCols d = .error .assertFail) := by
  constructor
  · intro h; unfold Csr.scaleRows; rw [cassert_false h]; rfl
  · intro h; unfold Csr.scaleCols; rw [cassert_false h]; rfl

example : exE.scaleRows [2, 3, 4]
    = .ok ⟨3, 3, [0, 3, 4, 6], [0, 2, 1, 1, 0, 2], [10, 12, 14, 24, 36, 16]⟩ := by decide

end Linalg
