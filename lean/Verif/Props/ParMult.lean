import Verif.Proof.ParSplitExt
import Verif.Props.SparseMult
import Verif.Props.ParAdd

/-! # Products of distributed matrices -/

namespace Linalg
open Cpp

variable {α R : Type}

namespace Par

theorem vecAt_starts (a b c : Int) : vecAt [a, b, c] 0 = a ∧ vecAt [a, b, c] 1 = b ∧ vecAt [a, b, c] 2 = c := ⟨rfl, rfl, rfl⟩

/-- The entries of a renumbered row, looked up in the column map. -/
theorem sum_mapCols [AddCommMonoid R] (m : List Int) (f : Int → Int) (r : List (Int × R))
    (hf : ∀ e ∈ r, 0 ≤ f e.1 ∧ f e.1 < (m.length : Int)) (c : Int) :
    (∑ k ∈ Finset.Ico (0 : Int) m.length, if vecAt m k = c then rowCoef (r.map (fun e => (f e.1, e.2))) k else 0)
      = (r.map (fun e => if vecAt m (f e.1) = c then e.2 else 0)).sum := by
  induction r with
  | nil => simp
  | cons e r ih =>
    rw [List.map_cons (f := fun e : Int × R => if vecAt m (f e.1) = c then e.2 else 0), List.sum_cons, ← ih (fun e' he' => hf e' (by simp [he'])),
      List.map_cons]
    simp only [rowCoef_cons]
    have h1 : (if vecAt m (f e.1) = c then e.2 else 0)
        = ∑ k ∈ Finset.Ico (0 : Int) m.length, if f e.1 = k then (if vecAt m k = c then e.2 else 0) else 0 := by
      rw [Finset.sum_ite_eq, if_pos (Finset.mem_Ico.mpr (hf e (by simp)))]
    rw [h1, ← Finset.sum_add_distrib]
    apply Finset.sum_congr rfl
    intro k _
    by_cases h2 : vecAt m k = c <;> by_cases h3 : f e.1 = k <;> simp [h2, h3]

/-- Splitting a received row by ownership loses nothing. -/
theorem split_row [AddCommMonoid R] (m : List Int) (search : Int → Int) (first last c : Int) (r : List (Int × R))
    (hs : ∀ e ∈ r, isOther first last e.1 = true → 0 ≤ search e.1 ∧ search e.1 < (m.length : Int) ∧ vecAt m (search e.1) = e.1) :
    (if first ≤ c ∧ c < last + 1 then rowCoef (ownRow first last r) (c - first) else 0)
      + (∑ k ∈ Finset.Ico (0 : Int) m.length, if vecAt m k = c
          then rowCoef ((otherRow first last r).map (fun e => (search e.1, e.2))) k else 0) = rowCoef r c := by
  rw [sum_mapCols m search (otherRow first last r) (by
    intro e he
    obtain ⟨h1, h2⟩ := List.mem_filter.mp he
    obtain ⟨h3, h4, _⟩ := hs e h1 h2
    exact ⟨h3, h4⟩)]
  induction r with
  | nil => simp [ownRow, otherRow]
  | cons e r ih =>
    have ih' := ih (fun e' he' => hs e' (by simp [he']))
    rw [rowCoef_cons, ← ih']
    by_cases ho : isOther first last e.1 = true
    · have e1 : otherRow first last (e :: r) = e :: otherRow first last r := by simp [otherRow, ho]
      have e2 : ownRow first last (e :: r) = ownRow first last r := by simp [ownRow, ho]
      rw [e1, e2, List.map_cons, List.sum_cons, (hs e (by simp) ho).2.2]
      rw [add_left_comm]
    · have ho' : isOther first last e.1 = false := by simpa using ho
      have e1 : otherRow first last (e :: r) = otherRow first last r := by simp [otherRow, ho']
      have e2 : ownRow first last (e :: r) = (e.1 - first, e.2) :: ownRow first last r := by simp [ownRow, ho']
      rw [e1, e2, rowCoef_cons, ← add_assoc]
      congr 1
      simp only [isOther, Bool.or_eq_false_iff, decide_eq_false_iff_not, not_lt] at ho'
      by_cases hc : e.1 = c
      · rw [if_pos (by omega), if_pos (by omega), if_pos hc, if_pos (by omega)]
      · rw [if_neg hc, zero_add]
        congr 1
        simp only
        rw [if_neg (by omega), zero_add]

theorem combine [NonUnitalNonAssocSemiring R] (S T : Finset Int) (P : Prop) [Decidable P] (Q : Int → Prop) [DecidablePred Q]
    (a D : Int → R) (O : Int → Int → R) :
    (if P then ∑ k ∈ S, a k * D k else 0) + (∑ q ∈ T, if Q q then ∑ k ∈ S, a k * O k q else 0)
      = ∑ k ∈ S, a k * ((if P then D k else 0) + ∑ q ∈ T, if Q q then O k q else 0) := by
  have h1 : (if P then ∑ k ∈ S, a k * D k else 0) = ∑ k ∈ S, a k * (if P then D k else 0) := by
    by_cases hP : P <;> simp [hP]
  have h2 : (∑ q ∈ T, if Q q then ∑ k ∈ S, a k * O k q else 0) = ∑ k ∈ S, a k * ∑ q ∈ T, if Q q then O k q else 0 := by
    simp only [Finset.mul_sum]
    rw [Finset.sum_comm]
    apply Finset.sum_congr rfl
    intro q _
    by_cases hQ : Q q <;> simp [hQ]
  rw [h1, h2, ← Finset.sum_add_distrib]
  apply Finset.sum_congr rfl
  intro k _
  rw [mul_add]

theorem splitExt_of_none [Zero α] (srt : Csr.Sorter) (search : List Int → Int → Int) (A B : ParMat α) (ext ext' : Csr α)
    (h : A.offd.cols = 0) : splitExt srt search A B ext = splitExt srt search A B ext' := by
  unfold splitExt extSizes extFill
  rw [h]
  simp only [forUp_nil (le_refl (0 : Int))]

end Par

/-! ## C75 -/

/-- **C75.**  One process's share of `A.Mult(B)`: given the rows of `B` that belong to the off-process columns of `A` (or anything if
there are none), the product is accepted, well formed, distributed like the rows of `A` and the columns of `B`, and each coefficient
is the sum of products over the own and over the received rows. -/
theorem C75_local [NonUnitalNonAssocSemiring R] (srt : Csr.Sorter) (hs : IsSort srt) (search : List Int → Int → Int)
    (hsearch : IsSearch search) (reorder : Csr R → Csr R) (hre : Reorders reorder) (A B : ParMat R) (ext : Csr R)
    (r0 r1 rn k0 k1 kn k0' k1' c0 c1 cn : Int) (hA : A.WF r0 r1 rn k0 k1 kn) (hB : B.WF k0' k1' kn c0 c1 cn) (hk : k1 - k0 = k1' - k0')
    (hext : A.colMap = [] ∨ (ext.WF ∧ ext.rows = A.colMap.length ∧ ext.cols = cn)) :
    ∃ C, Par.multLocal srt search reorder A B ext = .ok C ∧ C.WF r0 r1 rn c0 c1 cn ∧
      ∀ i c, C.coef i c = ∑ k ∈ Finset.Ico (0 : Int) (k1 - k0), A.diag.coef i k * B.coef k c
        + ∑ k ∈ Finset.Ico (0 : Int) A.colMap.length, A.offd.coef i k * ext.coef k c := by
  -- the received rows may be taken to be well formed
  obtain ⟨ext', x1, x2, x3, x4⟩ : ∃ ext' : Csr R, (ext'.WF ∧ ext'.rows = A.colMap.length ∧ ext'.cols = cn) ∧
      Par.splitExt srt search A B ext = Par.splitExt srt search A B ext' ∧
      (∀ i c, ∑ k ∈ Finset.Ico (0 : Int) A.colMap.length, A.offd.coef i k * ext.coef k c
        = ∑ k ∈ Finset.Ico (0 : Int) A.colMap.length, A.offd.coef i k * ext'.coef k c) ∧ True := by
    rcases hext with h | h
    · refine ⟨Csr.ofRows cn [], ⟨Csr.wf_ofRows ?_ (by simp), by simp [h, Csr.ofRows], rfl⟩, ?_, ?_, trivial⟩
      · have := hB.col_starts; have := this.first_nonneg; have := hB.col_starts.le; have := hB.col_starts.last_le; omega
      · exact Par.splitExt_of_none srt search A B _ _ (by rw [hA.offd_cols, h]; rfl)
      · intro i c; simp [h]
    · exact ⟨ext, h, rfl, fun _ _ => rfl, trivial⟩
  have hcs := hB.col_starts
  have hrs := hA.row_starts
  -- rows
  have dAd := hA.diag_wf.eq_ofRows
  have dAo := hA.offd_wf.eq_ofRows
  have dBd := hB.diag_wf.eq_ofRows
  have dBo := hB.offd_wf.eq_ofRows
  have dE := x1.1.eq_ofRows
  have oAd := hA.diag_wf.rows_ok
  have oAo := hA.offd_wf.rows_ok
  have oBd := hB.diag_wf.rows_ok
  have oBo := hB.offd_wf.rows_ok
  have oE := x1.1.rows_ok
  have hf : rd B.colStarts 0 = .ok c0 := by rw [hcs.eq]; rfl
  have hle : ext'.rowsL.length = A.colMap.length := by rw [Csr.length_rowsL, x1.2.1]; omega
  have hBc : B.diag.cols = c1 - c0 := hB.diag_cols
  have hc01 : c0 ≤ c1 := hcs.le
  obtain ⟨mapC, s1, s2, s3⟩ := Par.splitExt_ok srt hs search (A := A) (B := B) (K := ext'.cols) (re := ext'.rowsL)
    (by rw [hA.offd_cols, hle]) hf
  rw [← dE] at s1
  obtain ⟨mp, p1, p2, p3, p4⟩ := Par.mapBToC_ok mapC B.colMap s2 hB.map_sorted (fun x hx => (s3 x).mpr (Or.inr hx))
  generalize hlast : c0 + B.diag.cols - 1 = last at s1 s3
  have hlast' : last + 1 = c1 := by omega
  obtain ⟨N, hN⟩ : ∃ N : Nat, B.diag.cols = (N : Int) := ⟨B.diag.cols.toNat, by omega⟩
  generalize hre_eq : ext'.rowsL = re at *
  -- columns found by the search
  have hfind : ∀ r ∈ re, ∀ e ∈ r, Par.isOther c0 last e.1 = true →
      0 ≤ search mapC e.1 ∧ search mapC e.1 < (mapC.length : Int) ∧ vecAt mapC (search mapC e.1) = e.1 := by
    intro r hr e he ho
    refine hsearch mapC e.1 s2 ((s3 _).mpr (Or.inl ?_))
    refine List.mem_map.mpr ⟨e, List.mem_flatten.mpr ⟨Par.otherRow c0 last r, List.mem_map.mpr ⟨r, hr, rfl⟩, ?_⟩, rfl⟩
    exact List.mem_filter.mpr ⟨he, ho⟩
  have S : Par.Setup A B (Csr.ofRows B.diag.cols (re.map (Par.ownRow c0 last)))
      (Csr.ofRows (mapC.length : Int) (Par.mapCols (search mapC) (re.map (Par.otherRow c0 last)))) mp
      (decide (A.diag.rows = B.diag.cols)) N mapC.length A.diag.rowsL A.offd.rowsL B.diag.rowsL B.offd.rowsL
      (re.map (Par.ownRow c0 last)) (Par.mapCols (search mapC) (re.map (Par.otherRow c0 last))) := by
    have a1 : ((B.diag.rowsL.length : Nat) : Int) = A.diag.cols := by
      rw [Csr.length_rowsL, hB.diag_rows, hA.diag_cols]
      have := hB.diag_wf.rows_nonneg
      have := hB.diag_rows
      omega
    have a2 : (((re.map (Par.ownRow c0 last)).length : Nat) : Int) = A.offd.cols := by
      rw [List.length_map, hle, hA.offd_cols]
    have a3 : ((mp.length : Nat) : Int) = B.offd.cols := by rw [p2, hB.offd_cols]
    have a4 := hA.diag_wf.rows_nonneg
    constructor
    · rw [a1]; exact dAd
    · rw [a2]; exact dAo
    · rw [← hN]; exact dBd
    · rw [a3]; exact dBo
    · rw [hN]
    · rfl
    · rw [a1]; exact oAd
    · rw [a2]; exact oAo
    · rw [← hN]; exact oBd
    · rw [a3]; exact oBo
    · intro r hr e he
      obtain ⟨r', hr', rfl⟩ := List.mem_map.mp hr
      obtain ⟨e', he', rfl⟩ := List.mem_map.mp he
      have := (List.mem_filter.mp he').2
      simp only [Par.isOther, Bool.not_eq_true', Bool.or_eq_false_iff, decide_eq_false_iff_not, not_lt] at this
      simp only
      omega
    · intro r hr e he
      obtain ⟨r', hr', rfl⟩ := List.mem_map.mp hr
      obtain ⟨e', he', rfl⟩ := List.mem_map.mp he
      obtain ⟨r'', hr'', rfl⟩ := List.mem_map.mp hr'
      obtain ⟨h1, h2⟩ := List.mem_filter.mp he'
      obtain ⟨h3, h4, _⟩ := hfind r'' hr'' e' h1 h2
      exact ⟨h3, h4⟩
    · exact p3
    · rw [Csr.length_rowsL, Csr.length_rowsL, hA.diag_rows, hA.offd_rows]
    · rw [Csr.length_rowsL, Csr.length_rowsL, hB.diag_rows, hB.offd_rows]
    · simp [Par.mapCols]
    · intro h
      have := of_decide_eq_true h
      rw [Csr.length_rowsL]; omega
  obtain ⟨st, f1, f2, f3, f4, f5⟩ := S.fill_loop rfl rfl
  have hsz := S.rowSizes_ok
  have hcd := fun i (hi : i < A.diag.rowsL.length) => (S.evs_ok i hi).1
  have hco := fun i (hi : i < A.diag.rowsL.length) => (S.evs_ok i hi).2
  have hRl : A.diag.rows = (A.diag.rowsL.length : Int) := by
    rw [Csr.length_rowsL]; have := hA.diag_wf.rows_nonneg; omega
  -- the blocks of the product
  generalize hrd : Par.resRows false (decide (A.diag.rows = B.diag.cols)) mp A.diag.rowsL A.offd.rowsL B.diag.rowsL B.offd.rowsL
      (re.map (Par.ownRow c0 last)) (Par.mapCols (search mapC) (re.map (Par.otherRow c0 last))) = rsd at f1 f2 f3 hsz
  generalize hro : Par.resRows true (decide (A.diag.rows = B.diag.cols)) mp A.diag.rowsL A.offd.rowsL B.diag.rowsL B.offd.rowsL
      (re.map (Par.ownRow c0 last)) (Par.mapCols (search mapC) (re.map (Par.otherRow c0 last))) = rso at f1 f4 f5 hsz
  have l1 : rsd.length = A.diag.rowsL.length := by rw [← hrd, Par.resRows_length]
  have l2 : rso.length = A.diag.rowsL.length := by rw [← hro, Par.resRows_length]
  have ok1 : ∀ r ∈ rsd, ∀ e ∈ r, 0 ≤ e.1 ∧ e.1 < (N : Int) := by
    intro r hr
    rw [← hrd] at hr
    obtain ⟨i, hi, rfl⟩ := List.mem_map.mp hr
    exact foldl_accum_ok (hcd i (List.mem_range.mp hi))
  have ok2 : ∀ r ∈ rso, ∀ e ∈ r, 0 ≤ e.1 ∧ e.1 < (mapC.length : Int) := by
    intro r hr
    rw [← hro] at hr
    obtain ⟨i, hi, rfl⟩ := List.mem_map.mp hr
    exact foldl_accum_ok (hco i (List.mem_range.mp hi))
  have wd : (Csr.ofRows (N : Int) rsd).WF := Csr.wf_ofRows (by omega) ok1
  have wo : (Csr.ofRows (mapC.length : Int) rso).WF := Csr.wf_ofRows (by omega) ok2
  -- the run
  have hrun : Par.multLocal srt search reorder A B ext
      = ParMat.new reorder A.rowStarts B.colStarts (Csr.ofRows (N : Int) rsd) (Csr.ofRows (mapC.length : Int) rso) mapC := by
    have g1 : A.globalCols = kn := by unfold ParMat.globalCols; rw [hA.col_starts.eq]; rfl
    have g2 : B.globalRows = kn := by unfold ParMat.globalRows; rw [hB.row_starts.eq]; rfl
    unfold Par.multLocal
    rw [cassert_true ⟨by rw [g1, g2], by rw [hA.diag_cols, hB.diag_rows, hk]⟩, ok_bind]
    simp only
    rw [x2, s1, ok_bind]
    simp only
    rw [p1, ok_bind, hsz, ok_bind]
    simp only
    have r1 : ∀ rs : List (List (Int × R)), rd (ptrs rs) 0 = .ok 0 := by
      intro rs
      have := rd_ptrs rs 0 (by omega)
      simpa using this
    have r2 : ∀ rs : List (List (Int × R)), rs.length = A.diag.rowsL.length →
        rd (ptrs rs) A.diag.rows = .ok ((rs.flatten.length : Nat) : Int) := by
      intro rs h
      rw [hRl, ← h, rd_ptrs rs rs.length le_rfl, List.take_length]
    rw [r2 rsd l1, ok_bind, r2 rso l2, ok_bind, mkVec_nat, ok_bind, mkVec_nat, ok_bind, mkVec_nat, ok_bind, mkVec_nat, ok_bind,
      r1, ok_bind, r1, ok_bind]
    have q2 : mkVec (B.diag.cols + (mapC.length : Int)) (-1 : Int) = .ok (List.replicate (N + mapC.length) (-1)) := by
      rw [hN]
      have := mkVec_nat (N + mapC.length) (-1 : Int); push_cast at this; exact this
    rw [q2, ok_bind]
    rw [← hRl] at f1
    rw [f1, ok_bind]
    have v1 : rd B.colStarts 1 = .ok c1 := by rw [hcs.eq]; rfl
    rw [v1, ok_bind, hf, ok_bind, f2, f3, f4, f5]
    have o1 := Csr.ofArrays_ofRows (n := (N : Int)) (rs := rsd) (by omega) ok1
    have o2 := Csr.ofArrays_ofRows (n := (mapC.length : Int)) (rs := rso) (by omega) ok2
    rw [l1, ← hRl] at o1
    rw [l2, ← hRl] at o2
    have hNc : c1 - c0 = (N : Int) := by omega
    rw [hNc, o1, ok_bind, o2, ok_bind]
  -- accepted
  have hmr : ∀ c ∈ mapC, (0 ≤ c ∧ c < cn) ∧ (c < c0 ∨ c1 ≤ c) := by
    intro c hc
    rcases (s3 c).mp hc with h | h
    · obtain ⟨e, he, rfl⟩ := List.mem_map.mp h
      obtain ⟨r', hr', he'⟩ := List.mem_flatten.mp he
      obtain ⟨r, hr, rfl⟩ := List.mem_map.mp hr'
      obtain ⟨h1, h2⟩ := List.mem_filter.mp he'
      have h3 := oE r hr e h1
      rw [x1.2.2] at h3
      simp only [Par.isOther, Bool.or_eq_true, decide_eq_true_eq] at h2
      exact ⟨h3, by omega⟩
    · exact ⟨hB.map_range c h, hB.map_other c h⟩
  obtain ⟨C, hC⟩ := (C74_accepts reorder A.rowStarts B.colStarts (Csr.ofRows (N : Int) rsd) (Csr.ofRows (mapC.length : Int) rso) mapC).mpr
    ⟨r0, r1, rn, c0, c1, cn, hrs, hcs, by
      show ((rsd.length : Nat) : Int) = _
      rw [l1, ← hRl]; exact hA.diag_rows, by show (N : Int) = _; omega, Or.inr ⟨by
      show ((rso.length : Nat) : Int) = _
      rw [l2, ← hRl]; exact hA.diag_rows, rfl⟩, s2, fun c hc => (hmr c hc).1, fun c hc => (hmr c hc).2⟩
  obtain ⟨r0', r1', rn', c0', c1', cn', w1, w2, w3, w4, w5⟩ := C74_result reorder hre _ _ _ _ wd wo mapC C hC
  have hr' := w1.row_starts.eq
  have hc' := w1.col_starts.eq
  rw [w2, hrs.eq] at hr'
  rw [w3, hcs.eq] at hc'
  simp only [List.cons.injEq, and_true] at hr' hc'
  obtain ⟨rfl, rfl, rfl⟩ := hr'
  obtain ⟨rfl, rfl, rfl⟩ := hc'
  refine ⟨C, by rw [hrun]; exact hC, w1, ?_⟩
  intro i c
  rw [w5, x3]
  by_cases hi : 0 ≤ i ∧ i < A.diag.rows
  · obtain ⟨k, rfl⟩ : ∃ k : Nat, i = k := ⟨i.toNat, by omega⟩
    have hkl : k < A.diag.rowsL.length := by omega
    have hkl' : k < A.offd.rowsL.length := by
      rw [Csr.length_rowsL, hA.offd_rows, ← hA.diag_rows, ← Csr.length_rowsL]; exact hkl
    have rA : A.diag.rowsL.getD k [] = A.diag.row k := by
      rw [List.getD_eq_getElem?_getD, List.getElem?_eq_getElem hkl]
      simp [Csr.rowsL]
    have rAo : A.offd.rowsL.getD k [] = A.offd.row k := by
      rw [List.getD_eq_getElem?_getD, List.getElem?_eq_getElem hkl']
      simp [Csr.rowsL]
    have mA : ∀ e ∈ A.diag.row k, 0 ≤ e.1 ∧ e.1 < (B.diag.rowsL.length : Int) := by
      intro e he
      have := Csr.mem_row_ok hA.diag_wf he
      rw [hA.diag_cols, hk, ← hB.diag_rows] at this
      rw [Csr.length_rowsL]; omega
    have mA2 : ∀ e ∈ A.diag.row k, 0 ≤ e.1 ∧ e.1 < ((Par.mapCols (vecAt mp) B.offd.rowsL).length : Int) := by
      intro e he
      have h1 := mA e he
      have h2 : (Par.mapCols (vecAt mp) B.offd.rowsL).length = B.diag.rowsL.length := by
        simp only [Par.mapCols, List.length_map]; exact S.len_b
      rw [h2]; exact h1
    have mAo : ∀ e ∈ A.offd.row k, 0 ≤ e.1 ∧ e.1 < (re.length : Int) := by
      intro e he
      have := Csr.mem_row_ok hA.offd_wf he
      rw [hA.offd_cols] at this
      rw [hle]; exact this.2.2
    -- the coefficients of the two blocks
    have cD : ∀ j, (Csr.ofRows (N : Int) rsd).coef k j
        = ∑ l ∈ Finset.Ico (0 : Int) re.length, A.offd.coef k l * (Csr.ofRows (N : Int) (re.map (Par.ownRow c0 last))).coef l j
          + ∑ l ∈ Finset.Ico (0 : Int) B.diag.rowsL.length, A.diag.coef k l * B.diag.coef l j := by
      intro j
      rw [coef_ofRows _ rsd k (by omega)]
      have : rsd[k]'(by omega) = (Par.evSide false (Par.allEvs (decide (A.diag.rows = B.diag.cols)) mp A.diag.rowsL A.offd.rowsL B.diag.rowsL
          B.offd.rowsL (re.map (Par.ownRow c0 last)) (Par.mapCols (search mapC) (re.map (Par.otherRow c0 last))) k)).foldl accum [] := by
        simp only [← hrd, Par.resRows, List.getElem_map, List.getElem_range]
      rw [this, rowCoef_foldl_accum]
      unfold Par.allEvs
      rw [Par.evSide_rowEvs_diag, rowCoef_append, rowCoef_append, rA, rAo, rowCoef_prodsRow (N : Int) (by simpa using mAo),
        rowCoef_prodsRow (B.diag.cols) mA]
      have z : rowCoef (if (decide (A.diag.rows = B.diag.cols)) = true then [((k : Int), (0 : R))] else []) j = 0 := by
        split
        · rw [rowCoef_cons]; simp
        · rfl
      rw [z, rowCoef_nil, zero_add, zero_add, List.length_map, ← dBd]
      rfl
    have cO : ∀ j, (Csr.ofRows (mapC.length : Int) rso).coef k j
        = ∑ l ∈ Finset.Ico (0 : Int) re.length, A.offd.coef k l
            * (Csr.ofRows (mapC.length : Int) (Par.mapCols (search mapC) (re.map (Par.otherRow c0 last)))).coef l j
          + ∑ l ∈ Finset.Ico (0 : Int) B.diag.rowsL.length, A.diag.coef k l
            * (Csr.ofRows (mapC.length : Int) (Par.mapCols (vecAt mp) B.offd.rowsL)).coef l j := by
      intro j
      rw [coef_ofRows _ rso k (by omega)]
      have : rso[k]'(by omega) = (Par.evSide true (Par.allEvs (decide (A.diag.rows = B.diag.cols)) mp A.diag.rowsL A.offd.rowsL B.diag.rowsL
          B.offd.rowsL (re.map (Par.ownRow c0 last)) (Par.mapCols (search mapC) (re.map (Par.otherRow c0 last))) k)).foldl accum [] := by
        simp only [← hro, Par.resRows, List.getElem_map, List.getElem_range]
      rw [this, rowCoef_foldl_accum]
      unfold Par.allEvs
      rw [Par.evSide_rowEvs_offd, rowCoef_append, rA, rAo, rowCoef_prodsRow (mapC.length : Int) (by simpa [Par.mapCols] using mAo),
        rowCoef_prodsRow (mapC.length : Int) mA2, rowCoef_nil, zero_add]
      have h2 : (Par.mapCols (vecAt mp) B.offd.rowsL).length = B.diag.rowsL.length := by
        simp only [Par.mapCols, List.length_map]; exact S.len_b
      have h3 : (Par.mapCols (search mapC) (re.map (Par.otherRow c0 last))).length = re.length := by simp [Par.mapCols]
      rw [h2, h3]
      rfl
    simp only [cD, cO]
    have hsplit : ∀ (P : Prop) [Decidable P] (x y : R), (if P then x + y else 0) = (if P then x else 0) + (if P then y else 0) := by
      intro P _ x y; split <;> simp
    simp only [hsplit, Finset.sum_add_distrib]
    rw [add_add_add_comm, Par.combine, Par.combine, add_comm]
    congr 1
    · -- own rows
      have e : ((B.diag.rowsL.length : Nat) : Int) = k1 - k0 := by
        rw [Csr.length_rowsL]; have := hB.diag_rows; have := hB.diag_wf.rows_nonneg; omega
      rw [e]
      apply Finset.sum_congr rfl
      intro l hl
      rw [Finset.mem_Ico] at hl
      congr 1
      unfold ParMat.coef
      rw [hcs.eq, (Par.vecAt_starts _ _ _).1, (Par.vecAt_starts _ _ _).2.1]
      congr 1
      have hll : l.toNat < B.offd.rowsL.length := by rw [S.len_b]; omega
      have e1 : ∀ q, (Csr.ofRows (mapC.length : Int) (Par.mapCols (vecAt mp) B.offd.rowsL)).coef l q
          = rowCoef ((B.offd.row l).map (fun e => (vecAt mp e.1, e.2))) q := by
        intro q
        rw [coef_ofRows_getD _ _ hl.1, Par.mapCols, List.getD_eq_getElem?_getD, List.getElem?_map, List.getElem?_eq_getElem hll]
        simp only [Option.map_some, Option.getD_some, Csr.rowsL, List.getElem_map, List.getElem_range]
        rw [Int.toNat_of_nonneg hl.1]
      simp only [e1]
      have hbm : ∀ e ∈ B.offd.row l, 0 ≤ e.1 ∧ e.1 < (mp.length : Int) := by
        intro e he
        have := Csr.mem_row_ok hB.offd_wf he
        rw [hB.offd_cols, ← p2] at this
        exact this.2.2
      rw [Par.sum_mapCols mapC (vecAt mp) (B.offd.row l) (by
        intro e he
        have := hbm e he
        rw [vecAt_int mp this.1 this.2]
        exact p3 _ (List.getElem_mem _))]
      have e2 := Par.sum_mapCols B.colMap (fun q => q) (B.offd.row l) (by
        intro e he
        have := hbm e he
        rw [p2] at this
        exact this) c
      simp only [Prod.mk.eta, List.map_id'] at e2
      simp only [Csr.coef_eq]
      rw [e2]
      congr 1
      apply List.map_congr_left
      intro e he
      have := hbm e he
      obtain ⟨q, hq⟩ : ∃ q : Nat, e.1 = (q : Int) := ⟨e.1.toNat, by omega⟩
      rw [hq, p4 q (by omega)]
    · -- received rows
      rw [hle]
      apply Finset.sum_congr rfl
      intro l hl
      rw [Finset.mem_Ico] at hl
      congr 1
      have hll : l.toNat < re.length := by rw [hle]; omega
      have e1 : ∀ q, (Csr.ofRows (N : Int) (re.map (Par.ownRow c0 last))).coef l q = rowCoef (Par.ownRow c0 last re[l.toNat]) q := by
        intro q
        rw [coef_ofRows_getD _ _ hl.1, List.getD_eq_getElem?_getD, List.getElem?_map, List.getElem?_eq_getElem hll]
        rfl
      have e2 : ∀ q, (Csr.ofRows (mapC.length : Int) (Par.mapCols (search mapC) (re.map (Par.otherRow c0 last)))).coef l q
          = rowCoef ((Par.otherRow c0 last re[l.toNat]).map (fun e => (search mapC e.1, e.2))) q := by
        intro q
        rw [coef_ofRows_getD _ _ hl.1, Par.mapCols, List.getD_eq_getElem?_getD, List.getElem?_map, List.getElem?_map,
          List.getElem?_eq_getElem hll]
        rfl
      have e3 : ext'.coef l c = rowCoef re[l.toNat] c := by
        rw [dE, coef_ofRows_getD _ _ hl.1, List.getD_eq_getElem?_getD, List.getElem?_eq_getElem hll]
        rfl
      rw [e3, ← Par.split_row mapC (search mapC) c0 last c re[l.toNat] (fun e he ho => hfind _ (List.getElem_mem hll) e he ho), hlast']
      simp only [e1, e2]
  · have z1 : ∀ j, A.diag.coef i j = 0 := fun j => Csr.coef_of_not_row hA.diag_wf (by omega)
    have z2 : ∀ j, A.offd.coef i j = 0 := fun j => Csr.coef_of_not_row hA.offd_wf (by rw [hA.offd_rows, ← hA.diag_rows]; omega)
    have z3 : ∀ j, (Csr.ofRows (N : Int) rsd).coef i j = 0 := fun j => Csr.coef_of_not_row wd (by
      show ¬ (0 ≤ i ∧ i < ((rsd.length : Nat) : Int))
      rw [l1, ← hRl]; omega)
    have z4 : ∀ j, (Csr.ofRows (mapC.length : Int) rso).coef i j = 0 := fun j => Csr.coef_of_not_row wo (by
      show ¬ (0 ≤ i ∧ i < ((rso.length : Nat) : Int))
      rw [l2, ← hRl]; omega)
    simp only [z1, z2, z3, z4, zero_mul, Finset.sum_const_zero, ite_self, add_zero]

/-! ## C76 -/

namespace Par

theorem mapM_exists {β γ : Type} (l : List β) (f : β → Res γ) (P : Nat → γ → Prop)
    (h : ∀ p (hp : p < l.length), ∃ c, f l[p] = .ok c ∧ P p c) :
    ∃ cs, l.mapM f = .ok cs ∧ ∃ hl : cs.length = l.length, ∀ p (hp : p < l.length), P p (cs[p]'(by omega)) := by
  induction l generalizing P with
  | nil => exact ⟨[], rfl, rfl, fun p hp => absurd hp (by simp)⟩
  | cons b l ih =>
    obtain ⟨c, c1, c2⟩ := h 0 (by simp)
    obtain ⟨cs, d1, d2, d3⟩ := ih (fun p => P (p + 1)) (fun p hp => h (p + 1) (by simpa using hp))
    refine ⟨c :: cs, ?_, by simp [d2], ?_⟩
    · rw [List.mapM_cons]
      rw [List.getElem_cons_zero] at c1
      rw [c1, ok_bind, d1]
      rfl
    · intro p hp
      cases p with
      | zero => exact c2
      | succ p => exact d3 p (by simpa using hp)

theorem sum_list_comm [AddCommMonoid R] {β : Type} (S : Finset Int) (l : List β) (f : β → Int → R) :
    ∑ k ∈ S, (l.map (fun x => f x k)).sum = (l.map (fun x => ∑ k ∈ S, f x k)).sum := by
  induction l with
  | nil => simp
  | cons x l ih => simp only [List.map_cons, List.sum_cons, Finset.sum_add_distrib, ih]

theorem IsDist.mono {l : List Int} (h : l.Pairwise (· ≤ ·)) {p q : Nat} (hpq : p ≤ q) (hq : q < l.length) :
    vecAt l (p : Int) ≤ vecAt l (q : Int) := by
  rw [vecAt_nat l p (by omega), vecAt_nat l q hq]
  rcases Nat.lt_or_ge p q with h1 | h1
  · exact List.pairwise_iff_getElem.mp h p q (by omega) hq h1
  · have : p = q := by omega
    subst this
    exact le_refl _

/-- A row of a well-formed share outside the local range is zero. -/
theorem coef_of_not_row [AddCommMonoid R] {M : ParMat R} {r0 r1 rn c0 c1 cn : Int} (h : M.WF r0 r1 rn c0 c1 cn) {i : Int}
    (hi : ¬ (0 ≤ i ∧ i < r1 - r0)) (c : Int) : M.coef i c = 0 := by
  unfold ParMat.coef
  have z1 : ∀ j, M.diag.coef i j = 0 := fun j => Csr.coef_of_not_row h.diag_wf (by rw [h.diag_rows]; exact hi)
  have z2 : ∀ j, M.offd.coef i j = 0 := fun j => Csr.coef_of_not_row h.offd_wf (by rw [h.offd_rows]; exact hi)
  simp only [z1, z2, ite_self, Finset.sum_const_zero, add_zero]

/-- A global row is the local row of its owner. -/
theorem globalCoef_owner [AddCommMonoid R] {Ms : List (ParMat R)} {ro co : List Int} (h : IsDist Ms ro co) (p : Nat) (hp : p < Ms.length)
    {i : Int} (h0 : 0 ≤ i) (h1 : i < vecAt ro (p + 1) - vecAt ro p) (c : Int) :
    globalCoef Ms (vecAt ro p + i) c = Ms[p].coef i c := by
  unfold globalCoef
  have hl := h.rows_len
  have hm := h.rows_mono
  have key : ∀ q (hq : q < Ms.length), q ≠ p → Ms[q].coef (vecAt ro p + i - vecAt Ms[q].rowStarts 0) c = 0 := by
    intro q hq hne
    have hw := h.share q hq
    have hs : vecAt Ms[q].rowStarts 0 = vecAt ro q := by rw [hw.row_starts.eq]; rfl
    rw [hs]
    refine coef_of_not_row hw ?_ c
    rcases Nat.lt_or_ge q p with h' | h'
    · have := IsDist.mono hm (p := q + 1) (q := p) (by omega) (by omega)
      push_cast at this
      omega
    · have := IsDist.mono hm (p := p + 1) (q := q) (by omega) (by omega)
      push_cast at this
      omega
  have hself : Ms[p].coef (vecAt ro p + i - vecAt Ms[p].rowStarts 0) c = Ms[p].coef i c := by
    have hs : vecAt Ms[p].rowStarts 0 = vecAt ro p := by rw [(h.share p hp).row_starts.eq]; rfl
    rw [hs]; congr 1; omega
  have hsplit : Ms = Ms.take p ++ Ms[p] :: Ms.drop (p + 1) := by
    rw [← List.drop_eq_getElem_cons hp, List.take_append_drop]
  have hL : ((Ms.take p).map (fun M => M.coef (vecAt ro p + i - vecAt M.rowStarts 0) c)).sum = 0 := by
    apply List.sum_eq_zero
    intro x hx
    obtain ⟨M, hM, rfl⟩ := List.mem_map.mp hx
    obtain ⟨q, hq, rfl⟩ := List.mem_take_iff_getElem.mp hM
    exact key q (by omega) (by omega)
  have hR : ((Ms.drop (p + 1)).map (fun M => M.coef (vecAt ro p + i - vecAt M.rowStarts 0) c)).sum = 0 := by
    apply List.sum_eq_zero
    intro x hx
    obtain ⟨M, hM, rfl⟩ := List.mem_map.mp hx
    obtain ⟨q, hq, rfl⟩ := List.getElem_of_mem hM
    rw [List.getElem_drop]
    exact key (p + 1 + q) _ (by omega)
  conv_lhs => rw [hsplit]
  rw [List.map_append, List.sum_append, List.map_cons, List.sum_cons, hL, hR, zero_add, add_zero, hself]

/-- A row of a share times a vector: own columns and other columns. -/
theorem sum_coef_mul [NonUnitalNonAssocSemiring R] {M : ParMat R} {r0 r1 rn c0 c1 cn : Int} (h : M.WF r0 r1 rn c0 c1 cn) (i : Int)
    (G : Int → R) :
    ∑ k ∈ Finset.Ico (0 : Int) cn, M.coef i k * G k
      = ∑ k ∈ Finset.Ico (0 : Int) (c1 - c0), M.diag.coef i k * G (c0 + k)
        + ∑ q ∈ Finset.Ico (0 : Int) M.colMap.length, M.offd.coef i q * G (vecAt M.colMap q) := by
  have hc := h.col_starts
  have e : ∀ k, M.coef i k * G k = (if c0 ≤ k ∧ k < c1 then M.diag.coef i (k - c0) * G k else 0)
      + ∑ q ∈ Finset.Ico (0 : Int) M.colMap.length, if vecAt M.colMap q = k then M.offd.coef i q * G k else 0 := by
    intro k
    unfold ParMat.coef
    rw [hc.eq, (vecAt_starts _ _ _).1, (vecAt_starts _ _ _).2.1, add_mul, Finset.sum_mul]
    congr 1
    · split <;> simp
    · apply Finset.sum_congr rfl
      intro q _
      split <;> simp
  simp only [e, Finset.sum_add_distrib]
  congr 1
  · rw [← Finset.sum_filter]
    refine Finset.sum_bij' (fun k _ => k - c0) (fun k _ => c0 + k) ?_ ?_ ?_ ?_ ?_
    · intro k hk
      simp only [Finset.mem_filter, Finset.mem_Ico] at hk ⊢
      omega
    · intro k hk
      have := hc.first_nonneg; have := hc.last_le
      simp only [Finset.mem_filter, Finset.mem_Ico] at hk ⊢
      omega
    · intro k _; omega
    · intro k _; omega
    · intro k _
      have : c0 + (k - c0) = k := by omega
      rw [this]
  · rw [Finset.sum_comm]
    apply Finset.sum_congr rfl
    intro q hq
    rw [Finset.sum_ite_eq, if_pos]
    simp only [Finset.mem_Ico] at hq ⊢
    rw [vecAt_int M.colMap hq.1 hq.2]
    exact h.map_range _ (List.getElem_mem _)

end Par

/-- **C76.**  `A.Mult(B)` on all processes, for matrices distributed over the same processes such that the rows of `B` are distributed
like the columns of `A`: the result is distributed like the rows of `A` and the columns of `B` and is the matrix product. -/
theorem C76_parMult [NonUnitalNonAssocSemiring R] (srt : Csr.Sorter) (hs : IsSort srt) (search : List Int → Int → Int)
    (hsearch : IsSearch search) (reorder : Csr R → Csr R) (hre : Reorders reorder)
    (extract : List (ParMat R) → ParMat R → Csr R) (As Bs : List (ParMat R)) (ro ko co : List Int)
    (hA : Par.IsDist As ro ko) (hB : Par.IsDist Bs ko co) (hlen : As.length = Bs.length)
    (hext : As.length > 1 → ∀ A ∈ As, Par.IsExtract extract Bs (vecAt co Bs.length) A) :
    ∃ Cs, Par.parMult srt search reorder extract As Bs = .ok Cs ∧ Cs.length = As.length ∧ Par.IsDist Cs ro co ∧
      ∀ g c, Par.globalCoef Cs g c
        = ∑ k ∈ Finset.Ico (0 : Int) (vecAt ko As.length), Par.globalCoef As g k * Par.globalCoef Bs k c := by
  have hloc : ∀ (p : Nat) (hp : p < As.length), ∃ C, Par.multLocal srt search reorder As[p] (Bs[p]'(by omega))
        (if As.length > 1 then extract Bs As[p] else Par.nullCsr) = .ok C ∧
      C.WF (vecAt ro p) (vecAt ro (p + 1)) (vecAt ro As.length) (vecAt co p) (vecAt co (p + 1)) (vecAt co As.length) ∧
      ∀ i c, C.coef i c = ∑ k ∈ Finset.Ico (0 : Int) (vecAt ko As.length), As[p].coef i k * Par.globalCoef Bs k c := by
    intro p hp
    have hp' : p < Bs.length := by omega
    have wA := hA.share p hp
    have wB := hB.share p hp'
    rw [← hlen] at wB
    have hx : As[p].colMap = [] ∨ ((if As.length > 1 then extract Bs As[p] else Par.nullCsr).WF ∧
        (if As.length > 1 then extract Bs As[p] else Par.nullCsr).rows = As[p].colMap.length ∧
        (if As.length > 1 then extract Bs As[p] else Par.nullCsr).cols = vecAt co As.length) := by
      by_cases h1 : As.length > 1
      · right
        rw [if_pos h1]
        obtain ⟨a, b, c, _⟩ := hext h1 As[p] (List.getElem_mem hp)
        rw [← hlen] at c
        exact ⟨a, b, c⟩
      · left
        have hone : As.length = 1 := by omega
        have hp0 : p = 0 := by omega
        rw [List.eq_nil_iff_forall_not_mem]
        intro c hc
        have h2 := wA.map_range c hc
        have h3 := wA.map_other c hc
        have h4 := hA.cols_first
        rw [hone] at h2
        subst hp0
        simp only [Nat.cast_zero, zero_add, Nat.cast_one] at h2 h3
        omega
    obtain ⟨C, c1, c2, c3⟩ := C75_local srt hs search hsearch reorder hre As[p] Bs[p] _ _ _ _ _ _ _ _ _ _ _ _ wA wB rfl hx
    refine ⟨C, c1, c2, fun i c => ?_⟩
    rw [c3, Par.sum_coef_mul wA i (fun k => Par.globalCoef Bs k c)]
    congr 1
    · apply Finset.sum_congr rfl
      intro k hk
      rw [Finset.mem_Ico] at hk
      rw [Par.globalCoef_owner hB p hp' hk.1 hk.2 c]
    · apply Finset.sum_congr rfl
      intro q hq
      rw [Finset.mem_Ico] at hq
      congr 1
      by_cases h1 : As.length > 1
      · rw [if_pos h1]
        exact (hext h1 As[p] (List.getElem_mem hp)).2.2.2 q c hq.1 hq.2
      · rcases hx with h | h
        · rw [h] at hq; simp at hq; omega
        · exfalso
          have h5 := h.1.indptr_len
          rw [if_neg h1] at h5
          simp [Par.nullCsr] at h5
  -- all processes
  have hrun : ∃ Cs : List (ParMat R), Par.parMult srt search reorder extract As Bs = .ok Cs ∧ ∃ hl : Cs.length = As.length,
      ∀ (p : Nat) (hp : p < As.length),
        (Cs[p]'(by omega)).WF (vecAt ro p) (vecAt ro (p + 1)) (vecAt ro As.length) (vecAt co p) (vecAt co (p + 1)) (vecAt co As.length) ∧
        ∀ i c, (Cs[p]'(by omega)).coef i c
          = ∑ k ∈ Finset.Ico (0 : Int) (vecAt ko As.length), As[p].coef i k * Par.globalCoef Bs k c := by
    have hz : (As.zip Bs).length = As.length := by simp [hlen]
    obtain ⟨Cs, k1, k2, k3⟩ := Par.mapM_exists (As.zip Bs)
      (fun p => Par.multLocal srt search reorder p.1 p.2 (if As.length > 1 then extract Bs p.1 else Par.nullCsr))
      (fun p C => ∀ hp : p < As.length,
        C.WF (vecAt ro p) (vecAt ro (p + 1)) (vecAt ro As.length) (vecAt co p) (vecAt co (p + 1)) (vecAt co As.length) ∧
        ∀ i c, C.coef i c = ∑ k ∈ Finset.Ico (0 : Int) (vecAt ko As.length), As[p].coef i k * Par.globalCoef Bs k c)
      (by
        intro p hp
        rw [hz] at hp
        obtain ⟨C, c1, c2⟩ := hloc p hp
        refine ⟨C, ?_, fun _ => c2⟩
        rw [List.getElem_zip]
        exact c1)
    exact ⟨Cs, k1, by omega, fun p hp => k3 p (by omega) hp⟩
  obtain ⟨Cs, h1, h2, h3⟩ := hrun
  refine ⟨Cs, h1, h2, ?_, ?_⟩
  · refine ⟨by rw [h2]; exact hA.rows_len, by rw [h2, hlen]; exact hB.cols_len, hA.rows_first, hB.cols_first, hA.rows_mono, hB.cols_mono, ?_⟩
    intro p hp
    rw [h2]
    exact (h3 p (by omega)).1
  · intro g c
    unfold Par.globalCoef
    simp only [← List.sum_map_mul_right]
    rw [Par.sum_list_comm]
    congr 1
    apply List.ext_getElem
    · simp [h2]
    · intro p q1 q2
      simp only [List.length_map] at q1 q2
      simp only [List.getElem_map]
      have hs1 : vecAt Cs[p].rowStarts 0 = vecAt ro p := by rw [(h3 p q2).1.row_starts.eq]; rfl
      have hs2 : vecAt As[p].rowStarts 0 = vecAt ro p := by rw [(hA.share p q2).row_starts.eq]; rfl
      rw [hs1, hs2, (h3 p q2).2]
      rfl

/-- **C75/C76.**  If the sizes do not fit, the assertion of `Mult` fires on that process. -/
theorem C75_rejects [Zero α] [Add α] [Mul α] (srt : Csr.Sorter) (search : List Int → Int → Int) (reorder : Csr α → Csr α)
    (A B : ParMat α) (ext : Csr α) (h : A.globalCols ≠ B.globalRows ∨ A.diag.cols ≠ B.diag.rows) :
    Par.multLocal srt search reorder A B ext = .error .assertFail := by
  unfold Par.multLocal
  rw [cassert_false (by rcases h with h | h <;> simp [h])]
  rfl

/-! ### A run on two processes: `[[1, 2], [4, 3]] * [[5, 0], [7, 6]] = [[19, 12], [41, 18]]` -/

namespace Par

def exA : List (ParMat Int) :=
  [⟨1, 1, [0, 1, 2], [0, 1, 2], ⟨1, 1, [0, 1], [0], [1]⟩, ⟨1, 1, [0, 1], [0], [2]⟩, [1]⟩,
   ⟨1, 1, [1, 2, 2], [1, 2, 2], ⟨1, 1, [0, 1], [0], [3]⟩, ⟨1, 1, [0, 1], [0], [4]⟩, [0]⟩]

def exB : List (ParMat Int) :=
  [⟨1, 1, [0, 1, 2], [0, 1, 2], ⟨1, 1, [0, 1], [0], [5]⟩, ⟨1, 0, [0, 0], [], []⟩, []⟩,
   ⟨1, 1, [1, 2, 2], [1, 2, 2], ⟨1, 1, [0, 1], [0], [6]⟩, ⟨1, 1, [0, 1], [0], [7]⟩, [0]⟩]

def exC : List (ParMat Int) :=
  [⟨1, 1, [0, 1, 2], [0, 1, 2], ⟨1, 1, [0, 1], [0], [19]⟩, ⟨1, 1, [0, 1], [0], [12]⟩, [1]⟩,
   ⟨1, 1, [1, 2, 2], [1, 2, 2], ⟨1, 1, [0, 1], [0], [18]⟩, ⟨1, 1, [0, 1], [0], [41]⟩, [0]⟩]

def exExtract : List (ParMat Int) → ParMat Int → Csr Int := fun _ A =>
  if A.colMap = [1] then ⟨1, 2, [0, 2], [0, 1], [7, 6]⟩ else ⟨1, 2, [0, 1], [0], [5]⟩

def exSearch (l : List Int) (v : Int) : Int := (l.idxOf v : Int)

theorem exSearch_isSearch : IsSearch exSearch := by
  intro l v _ hv
  have := List.idxOf_lt_length_of_mem hv
  refine ⟨by unfold exSearch; omega, by unfold exSearch; omega, ?_⟩
  unfold exSearch
  rw [vecAt_nat l _ this]
  exact List.getElem_idxOf this

theorem exDist : IsDist exA [0, 1, 2] [0, 1, 2] ∧ IsDist exB [0, 1, 2] [0, 1, 2] := by
  have a0 : exA[0].WF 0 1 2 0 1 2 := by constructor <;> first | decide | exact ⟨by decide, by decide, by decide, by decide⟩
  have a1 : exA[1].WF 1 2 2 1 2 2 := by constructor <;> first | decide | exact ⟨by decide, by decide, by decide, by decide⟩
  have b0 : exB[0].WF 0 1 2 0 1 2 := by constructor <;> first | decide | exact ⟨by decide, by decide, by decide, by decide⟩
  have b1 : exB[1].WF 1 2 2 1 2 2 := by constructor <;> first | decide | exact ⟨by decide, by decide, by decide, by decide⟩
  constructor
  · refine ⟨rfl, rfl, rfl, rfl, by decide, by decide, ?_⟩
    intro p hp
    rcases p with _ | _ | p
    · exact a0
    · exact a1
    · exact absurd hp (by simp [exA])
  · refine ⟨rfl, rfl, rfl, rfl, by decide, by decide, ?_⟩
    intro p hp
    rcases p with _ | _ | p
    · exact b0
    · exact b1
    · exact absurd hp (by simp [exB])

theorem exExtract_ok : ∀ A ∈ exA, IsExtract exExtract exB 2 A := by
  have hz : ∀ a c : Int, c ≠ 0 → c ≠ 1 → globalCoef exB a c = 0 := by
    intro a c h0 h1
    have e1 : ¬ (0 ≤ c ∧ c < 1) := by omega
    have e2 : ¬ (1 ≤ c ∧ c < 2) := by omega
    have e3 : ∀ k ∈ Finset.Ico (0 : Int) 1, vecAt [0] k ≠ c := by
      intro k hk
      rw [Finset.mem_Ico] at hk
      have : k = 0 := by omega
      subst this
      exact fun h => h0 h.symm
    simp only [globalCoef, exB, ParMat.coef, vecAt_starts, List.map_cons, List.map_nil, List.sum_cons, List.sum_nil, if_neg e1, if_neg e2]
    have e4 : ∀ f : Int → Int, (∑ k ∈ Finset.Ico (0 : Int) (([0] : List Int).length : Int), if vecAt [0] k = c then f k else 0) = 0 :=
      fun f => Finset.sum_eq_zero (fun k hk => if_neg (e3 k hk))
    rw [e4]
    simp
  intro A hA
  simp only [exA, List.mem_cons, List.not_mem_nil, or_false] at hA
  have key : ∀ (E : Csr Int) (m : Int), E.WF → E.cols = 2 → E.coef 0 0 = globalCoef exB m 0 → E.coef 0 1 = globalCoef exB m 1 →
      ∀ c, E.coef 0 c = globalCoef exB m c := by
    intro E m hE hcol h0 h1 c
    by_cases c0 : c = 0
    · rw [c0, h0]
    by_cases c1 : c = 1
    · rw [c1, h1]
    rw [hz m c c0 c1, Csr.coef_of_not_col hE (by omega)]
  rcases hA with rfl | rfl <;>
    (refine ⟨by constructor <;> decide, rfl, rfl, ?_⟩
     intro k c h0 h1
     have : k = 0 := by simp at h1; omega
     subst this
     exact key _ _ (by constructor <;> decide) rfl (by decide +kernel) (by decide +kernel) c)

end Par

example : Par.IsDist Par.exA [0, 1, 2] [0, 1, 2] ∧ Par.IsDist Par.exB [0, 1, 2] [0, 1, 2] ∧ IsSort Par.exSort ∧ IsSearch Par.exSearch ∧
    (∀ A ∈ Par.exA, Par.IsExtract Par.exExtract Par.exB 2 A) ∧
    Par.parMult Par.exSort Par.exSearch id Par.exExtract Par.exA Par.exB = .ok Par.exC ∧
    Par.globalCoef Par.exC 1 0 = 41 ∧ 4 * 5 + 3 * 7 = 41 :=
  ⟨Par.exDist.1, Par.exDist.2, Par.exSort_isSort, Par.exSearch_isSearch, Par.exExtract_ok, by decide +kernel, by decide +kernel, by decide⟩

end Linalg
