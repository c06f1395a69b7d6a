import Verif.Proof.ParThreads
import Verif.Props.ParMult

/-! # Products of distributed matrices with OpenMP threads -/

namespace Linalg
open Cpp

variable {α R : Type}

/-! ## C136 -/

/-- **C136.**  The ranges of the threads: in order, inside the rows, and every row belongs to exactly one thread; the ranges differ by at most one row. -/
theorem C136_ranges (n T : Nat) (hT : 0 < T) :
    (∀ t < T, 0 ≤ Par.threadBegin n T t ∧ Par.threadBegin n T t ≤ Par.threadEnd n T t ∧ Par.threadEnd n T t ≤ n ∧
      (Par.threadEnd n T t - Par.threadBegin n T t = n / T ∨ Par.threadEnd n T t - Par.threadBegin n T t = n / T + 1)) ∧
    ∀ i : Int, 0 ≤ i → i < n → ∃! t : Nat, t < T ∧ Par.threadBegin n T t ≤ i ∧ i < Par.threadEnd n T t := by
  constructor
  · intro t ht
    rw [Par.threadBegin_eq, Par.threadEnd_eq]
    have h1 := Par.rowOf_le_succ n T t
    have h2 := Par.rowOf_mono n T (show t + 1 ≤ T from ht)
    rw [Par.rowOf_last hT] at h2
    refine ⟨by omega, by omega, by omega, ?_⟩
    have h3 : Par.rowOf n T (t + 1) = Par.rowOf n T t + n / T ∨ Par.rowOf n T (t + 1) = Par.rowOf n T t + (n / T + 1) := by
      unfold Par.rowOf
      rw [Nat.succ_mul]
      omega
    have h4 : ((n / T : Nat) : Int) = (n : Int) / (T : Int) := by push_cast; rfl
    rw [← h4]
    omega
  · intro i h0 h1
    obtain ⟨k, rfl⟩ : ∃ k : Nat, i = k := ⟨i.toNat, by omega⟩
    obtain ⟨t, ht, a, b⟩ := Par.rowOf_cover hT (show k < n by omega)
    refine ⟨t, ⟨ht, by rw [Par.threadBegin_eq]; omega, by rw [Par.threadEnd_eq]; omega⟩, ?_⟩
    rintro t' ⟨ht', a', b'⟩
    rw [Par.threadBegin_eq] at a'
    rw [Par.threadEnd_eq] at b'
    exact (Par.rowOf_unique (n := n) (T := T) (i := k) (by omega) (by omega) (by omega) (by omega))

example : (List.range 3).map (fun (t : Nat) => (Par.threadBegin 7 3 t, Par.threadEnd 7 3 t)) = [(0, 3), (3, 5), (5, 7)] := by decide +kernel

namespace Par

theorem threadFor_zero {σ π : Type} {T : Nat} (hT : 0 < T) (sched : List Nat) (s : σ) (privs : List π) (hl : privs.length = T)
    (body : Int → σ × π → Res (σ × π)) : threadFor 0 T sched s privs body = .ok (s, privs) := by
  have hr : ∀ t, rowOf 0 T t = 0 := by intro t; simp [rowOf]
  have hc : Complete ((0 : Nat) : Int) T sched := by
    intro t _
    rw [threadBegin_eq, threadEnd_eq, hr, hr]
    simp
  obtain ⟨s', ps, h1, h2, h3, h4⟩ := threadFor_ok (body := body) hT hc hl (fun _ x => x = s) (fun t _ p => privs[t]? = some p) rfl (by
    intro t h
    exact List.getElem?_eq_getElem h) (by
    intro t _ i d s p h5 h6
    rw [hr] at h6
    omega)
  have e : threadFor 0 T sched s privs body = .ok (s', ps) := h1
  rw [e, h3]
  congr 2
  apply List.ext_getElem (by omega)
  intro t a b
  have := h4 t a
  rw [List.getElem?_eq_getElem b] at this
  exact (Option.some.inj this).symm

theorem mapM_length {β γ : Type} {f : β → Res γ} {l : List β} {r : List γ} (h : l.mapM f = .ok r) : r.length = l.length := by
  induction l generalizing r with
  | nil =>
    rw [List.mapM_nil] at h
    rw [← Except.ok.inj h]
    rfl
  | cons b l ih =>
    rw [List.mapM_cons] at h
    obtain ⟨c, -, h⟩ := bind_eq_ok.mp h
    obtain ⟨cs, h1, h⟩ := bind_eq_ok.mp h
    rw [← Except.ok.inj h, List.length_cons, List.length_cons, ih h1]

theorem splitExtT_of_none [Zero α] {T : Nat} (hT : 0 < T) (S : Schedules) (srt : Csr.Sorter) (search : List Int → Int → Int) (A B : ParMat α)
    (ext ext' : Csr α) (h : A.offd.cols = 0) : splitExtT T S srt search A B ext = splitExtT T S srt search A B ext' := by
  unfold splitExtT threadPtrs
  rw [h]
  simp only
  congr 1
  funext first
  congr 1
  · congr 1
    funext zi
    rw [threadFor_zero hT _ _ _ (by simp), threadFor_zero hT _ _ _ (by simp)]
  · funext p
    congr 1; funext nd
    congr 1; funext no
    congr 1; funext dj
    congr 1; funext dd
    congr 1; funext oj
    congr 1; funext od
    congr 1; funext temp
    cases hm : (List.range T).mapM (fun (t : Nat) => do
      let o ← rd p.2 (threadBegin 0 T t)
      let d ← rd p.1 (threadBegin 0 T t)
      (.ok (o, d) : Res (Int × Int))) with
    | error e => rfl
    | ok cnts =>
      have hl : cnts.length = T := by
        have := mapM_length hm
        simpa using this
      rw [ok_bind, ok_bind, threadFor_zero hT _ _ _ hl, threadFor_zero hT _ _ _ hl]

/-- The rows behind one process's product. -/
theorem mult_setup [NonUnitalNonAssocSemiring R] (srt : Csr.Sorter) (hs : IsSort srt) (search : List Int → Int → Int) (hsearch : IsSearch search)
    (A B : ParMat R) (ext' : Csr R) (r0 r1 rn k0 k1 kn k0' k1' c0 c1 cn : Int) (hA : A.WF r0 r1 rn k0 k1 kn) (hB : B.WF k0' k1' kn c0 c1 cn)
    (hk : k1 - k0 = k1' - k0') (x1 : ext'.WF ∧ ext'.rows = A.colMap.length ∧ ext'.cols = cn) :
    ∃ (mapC mp : List Int) (N : Nat) (red reo : List (List (Int × R))), B.diag.cols = (N : Int) ∧
      splitExt srt search A B ext' = .ok (Csr.ofRows B.diag.cols red, Csr.ofRows (mapC.length : Int) reo, mapC) ∧
      mapBToC mapC B.colMap = .ok mp ∧
      Setup A B (Csr.ofRows B.diag.cols red) (Csr.ofRows (mapC.length : Int) reo) mp (decide (A.diag.rows = B.diag.cols)) N mapC.length
        A.diag.rowsL A.offd.rowsL B.diag.rowsL B.offd.rowsL red reo := by
  have hcs := hB.col_starts
  have dAd := hA.diag_wf.eq_ofRows
  have dAo := hA.offd_wf.eq_ofRows
  have dBd := hB.diag_wf.eq_ofRows
  have dBo := hB.offd_wf.eq_ofRows
  have dE := x1.1.eq_ofRows
  have oAd := hA.diag_wf.rows_ok
  have oAo := hA.offd_wf.rows_ok
  have oBd := hB.diag_wf.rows_ok
  have oBo := hB.offd_wf.rows_ok
  have hf : rd B.colStarts 0 = .ok c0 := by rw [hcs.eq]; rfl
  have hle : ext'.rowsL.length = A.colMap.length := by rw [Csr.length_rowsL, x1.2.1]; omega
  have hBc : B.diag.cols = c1 - c0 := hB.diag_cols
  have hc01 : c0 ≤ c1 := hcs.le
  obtain ⟨mapC, s1, s2, s3⟩ := splitExt_ok srt hs search (A := A) (B := B) (K := ext'.cols) (re := ext'.rowsL)
    (by rw [hA.offd_cols, hle]) hf
  rw [← dE] at s1
  obtain ⟨mp, p1, p2, p3, p4⟩ := mapBToC_ok mapC B.colMap s2 hB.map_sorted (fun x hx => (s3 x).mpr (Or.inr hx))
  generalize hlast : c0 + B.diag.cols - 1 = last at s1 s3
  have hlast' : last + 1 = c1 := by omega
  obtain ⟨N, hN⟩ : ∃ N : Nat, B.diag.cols = (N : Int) := ⟨B.diag.cols.toNat, by omega⟩
  generalize hre_eq : ext'.rowsL = re at *
  have hfind : ∀ r ∈ re, ∀ e ∈ r, isOther c0 last e.1 = true →
      0 ≤ search mapC e.1 ∧ search mapC e.1 < (mapC.length : Int) ∧ vecAt mapC (search mapC e.1) = e.1 := by
    intro r hr e he ho
    refine hsearch mapC e.1 s2 ((s3 _).mpr (Or.inl ?_))
    refine List.mem_map.mpr ⟨e, List.mem_flatten.mpr ⟨otherRow c0 last r, List.mem_map.mpr ⟨r, hr, rfl⟩, ?_⟩, rfl⟩
    exact List.mem_filter.mpr ⟨he, ho⟩
  refine ⟨mapC, mp, N, _, _, hN, s1, p1, ?_⟩
  have a1 : ((B.diag.rowsL.length : Nat) : Int) = A.diag.cols := by
    rw [Csr.length_rowsL, hB.diag_rows, hA.diag_cols]
    have := hB.diag_wf.rows_nonneg
    have := hB.diag_rows
    omega
  have a2 : (((re.map (ownRow c0 last)).length : Nat) : Int) = A.offd.cols := by
    rw [List.length_map, hle, hA.offd_cols]
  have a3 : ((mp.length : Nat) : Int) = B.offd.cols := by rw [p2, hB.offd_cols]
  have a4 := hA.diag_wf.rows_nonneg
  constructor
  · rw [a1]; exact dAd
  · rw [a2]; exact dAo
  · rw [← hN]; exact dBd
  · rw [a3]; exact dBo
  · rw [hN]
  · rfl
  · rw [a1]; exact oAd
  · rw [a2]; exact oAo
  · rw [← hN]; exact oBd
  · rw [a3]; exact oBo
  · intro r hr e he
    obtain ⟨r', hr', rfl⟩ := List.mem_map.mp hr
    obtain ⟨e', he', rfl⟩ := List.mem_map.mp he
    have := (List.mem_filter.mp he').2
    simp only [isOther, Bool.not_eq_true', Bool.or_eq_false_iff, decide_eq_false_iff_not, not_lt] at this
    simp only
    omega
  · intro r hr e he
    obtain ⟨r', hr', rfl⟩ := List.mem_map.mp hr
    obtain ⟨e', he', rfl⟩ := List.mem_map.mp he
    obtain ⟨r'', hr'', rfl⟩ := List.mem_map.mp hr'
    obtain ⟨h1, h2⟩ := List.mem_filter.mp he'
    obtain ⟨h3, h4, _⟩ := hfind r'' hr'' e' h1 h2
    exact ⟨h3, h4⟩
  · exact p3
  · rw [Csr.length_rowsL, Csr.length_rowsL, hA.diag_rows, hA.offd_rows]
  · rw [Csr.length_rowsL, Csr.length_rowsL, hB.diag_rows, hB.offd_rows]
  · simp [mapCols]
  · intro h
    have := of_decide_eq_true h
    rw [Csr.length_rowsL]; omega
end Par

/-- **C136.**  One process's share of `A.Mult(B)` with any number of threads: however the threads interleave, the result is that of one thread (C75), the same
arrays in the same order. -/
theorem C136_local [NonUnitalNonAssocSemiring R] (T : Nat) (hT : 0 < T) (W : Par.Schedules) (srt : Csr.Sorter) (hs : IsSort srt)
    (search : List Int → Int → Int) (hsearch : IsSearch search) (reorder : Csr R → Csr R) (A B : ParMat R) (ext : Csr R)
    (r0 r1 rn k0 k1 kn k0' k1' c0 c1 cn : Int) (hA : A.WF r0 r1 rn k0 k1 kn) (hB : B.WF k0' k1' kn c0 c1 cn) (hk : k1 - k0 = k1' - k0')
    (hext : A.colMap = [] ∨ (ext.WF ∧ ext.rows = A.colMap.length ∧ ext.cols = cn)) (hW : W.Complete A.offd.cols A.diag.rows T) :
    Par.multLocalT T W srt search reorder A B ext = Par.multLocal srt search reorder A B ext := by
  obtain ⟨⟨w1, w2, w3, w4⟩, w5, w6, w7⟩ := hW
  obtain ⟨ext', x1, x2, x3⟩ : ∃ ext' : Csr R, (ext'.WF ∧ ext'.rows = A.colMap.length ∧ ext'.cols = cn) ∧
      Par.splitExt srt search A B ext = Par.splitExt srt search A B ext' ∧
      Par.splitExtT T W srt search A B ext = Par.splitExtT T W srt search A B ext' := by
    rcases hext with h | h
    · refine ⟨Csr.ofRows cn [], ⟨Csr.wf_ofRows ?_ (by simp), by simp [h, Csr.ofRows], rfl⟩, ?_, ?_⟩
      · have := hB.col_starts; have := this.first_nonneg; have := hB.col_starts.le; have := hB.col_starts.last_le; omega
      · exact Par.splitExt_of_none srt search A B _ _ (by rw [hA.offd_cols, h]; rfl)
      · exact Par.splitExtT_of_none hT W srt search A B _ _ (by rw [hA.offd_cols, h]; rfl)
    · exact ⟨ext, h, rfl, rfl⟩
  have hf : rd B.colStarts 0 = .ok c0 := by rw [hB.col_starts.eq]; rfl
  have hle : ext'.rowsL.length = A.colMap.length := by rw [Csr.length_rowsL, x1.2.1]; omega
  have hsame := Par.splitExtT_ok hT srt hs search (A := A) (B := B) (K := ext'.cols) (re := ext'.rowsL)
    (by rw [hA.offd_cols, hle]) w1 w2 w3 w4 hf
  rw [← x1.1.eq_ofRows] at hsame
  obtain ⟨mapC, mp, N, red, reo, hN, s1, p1, S⟩ := Par.mult_setup srt hs search hsearch A B ext' _ _ _ _ _ _ _ _ _ _ _ hA hB hk x1
  have hRl : A.diag.rows = (A.diag.rowsL.length : Int) := by
    rw [Csr.length_rowsL]; have := hA.diag_wf.rows_nonneg; omega
  obtain ⟨st, f1, f2, f3, f4, f5⟩ := S.fill_loop rfl rfl
  obtain ⟨ps, g1⟩ := S.fillT hT (by rw [← hRl]; exact w7) rfl rfl
  have hszT := S.rowSizesT_ok hT w5 w6
  have hsz := S.rowSizes_ok
  rw [hsz] at hszT
  generalize hrd : Par.resRows false (decide (A.diag.rows = B.diag.cols)) mp A.diag.rowsL A.offd.rowsL B.diag.rowsL B.offd.rowsL
      red reo = rsd at f1 f2 f3 g1 hsz hszT
  generalize hro : Par.resRows true (decide (A.diag.rows = B.diag.cols)) mp A.diag.rowsL A.offd.rowsL B.diag.rowsL B.offd.rowsL
      red reo = rso at f1 f4 f5 g1 hsz hszT
  have l1 : rsd.length = A.diag.rowsL.length := by rw [← hrd, Par.resRows_length]
  have l2 : rso.length = A.diag.rowsL.length := by rw [← hro, Par.resRows_length]
  have r1 : ∀ rs : List (List (Int × R)), rd (ptrs rs) 0 = .ok 0 := by
    intro rs
    have := rd_ptrs rs 0 (by omega)
    simpa using this
  have r2 : ∀ rs : List (List (Int × R)), rs.length = A.diag.rowsL.length →
      rd (ptrs rs) A.diag.rows = .ok ((rs.flatten.length : Nat) : Int) := by
    intro rs h
    rw [hRl, ← h, rd_ptrs rs rs.length le_rfl, List.take_length]
  have q2 : mkVec (B.diag.cols + (mapC.length : Int)) (-1 : Int) = .ok (List.replicate (N + mapC.length) (-1)) := by
    rw [hN]
    have := mkVec_nat (N + mapC.length) (-1 : Int); push_cast at this; exact this
  have m : (List.range T).mapM (fun (t : Nat) => do
      let d ← rd (ptrs rsd) (Par.threadBegin A.diag.rows T t)
      let o ← rd (ptrs rso) (Par.threadBegin A.diag.rows T t)
      (.ok (Par.SizeState.mk (List.replicate (N + mapC.length) (-1)) d o) : Res Par.SizeState))
      = .ok ((List.range T).map (fun t => Par.SizeState.mk (List.replicate (N + mapC.length) (-1)) (Par.pre rsd (Par.rowOf A.diag.rowsL.length T t))
        (Par.pre rso (Par.rowOf A.diag.rowsL.length T t)))) := by
    apply mapM_ok
    intro t ht
    rw [List.mem_range] at ht
    rw [hRl, Par.rd_ptrs_begin hT rsd l1 ht, ok_bind, Par.rd_ptrs_begin hT rso l2 ht, ok_bind]
  have a1 : A.globalCols = kn := by unfold ParMat.globalCols; rw [hA.col_starts.eq]; rfl
  have a2 : B.globalRows = kn := by unfold ParMat.globalRows; rw [hB.row_starts.eq]; rfl
  have v1 : rd B.colStarts 1 = .ok c1 := by rw [hB.col_starts.eq]; rfl
  have hpre : A.globalCols = B.globalRows ∧ A.diag.cols = B.diag.rows := ⟨by rw [a1, a2], by rw [hA.diag_cols, hB.diag_rows, hk]⟩
  rw [← hRl] at f1 g1
  have e1 : Par.multLocal srt search reorder A B ext = (do
      let diag ← Csr.ofArrays (ptrs rsd) (rsd.flatten.map Prod.fst) (rsd.flatten.map Prod.snd) A.diag.rows (c1 - c0)
      let offd ← Csr.ofArrays (ptrs rso) (rso.flatten.map Prod.fst) (rso.flatten.map Prod.snd) A.diag.rows (mapC.length : Int)
      ParMat.new reorder A.rowStarts B.colStarts diag offd mapC) := by
    unfold Par.multLocal
    rw [cassert_true hpre, ok_bind]
    simp only
    rw [x2, s1, ok_bind]
    simp only
    rw [p1, ok_bind, hsz, ok_bind]
    simp only
    rw [r2 rsd l1, ok_bind, r2 rso l2, ok_bind, mkVec_nat, ok_bind, mkVec_nat, ok_bind, mkVec_nat, ok_bind, mkVec_nat, ok_bind,
      r1, ok_bind, r1, ok_bind, q2, ok_bind, f1, ok_bind, v1, ok_bind, hf, ok_bind, f2, f3, f4, f5]
  have e2 : Par.multLocalT T W srt search reorder A B ext = (do
      let diag ← Csr.ofArrays (ptrs rsd) (rsd.flatten.map Prod.fst) (rsd.flatten.map Prod.snd) A.diag.rows (c1 - c0)
      let offd ← Csr.ofArrays (ptrs rso) (rso.flatten.map Prod.fst) (rso.flatten.map Prod.snd) A.diag.rows (mapC.length : Int)
      ParMat.new reorder A.rowStarts B.colStarts diag offd mapC) := by
    unfold Par.multLocalT
    rw [cassert_true hpre, ok_bind]
    simp only
    rw [x3, hsame, s1, ok_bind]
    simp only
    rw [p1, ok_bind, hszT, ok_bind]
    simp only
    rw [r2 rsd l1, ok_bind, r2 rso l2, ok_bind, mkVec_nat, ok_bind, mkVec_nat, ok_bind, mkVec_nat, ok_bind, mkVec_nat, ok_bind,
      q2, ok_bind, m, ok_bind, g1, ok_bind, v1, ok_bind, hf, ok_bind]
  rw [e1, e2]

/-- **C136.**  What one row of the second pass does to the arrays the threads share: there are entries of the row such that, whatever stands before and behind
the places of the row (other threads may have written it or not), the row is written into its places and the rest is left alone.  The marker is the thread's own;
it may hold anything below the two counters. -/
theorem C136_footprint [NonUnitalNonAssocSemiring R] (srt : Csr.Sorter) (hs : IsSort srt) (search : List Int → Int → Int) (hsearch : IsSearch search)
    (A B : ParMat R) (ext : Csr R) (r0 r1 rn k0 k1 kn k0' k1' c0 c1 cn : Int) (hA : A.WF r0 r1 rn k0 k1 kn) (hB : B.WF k0' k1' kn c0 c1 cn)
    (hk : k1 - k0 = k1' - k0') (hext : ext.WF ∧ ext.rows = A.colMap.length ∧ ext.cols = cn) :
    ∃ s mapBC, Par.splitExt srt search A B ext = .ok s ∧ Par.mapBToC s.2.2 B.colMap = .ok mapBC ∧
      ∀ i, 0 ≤ i → i < A.diag.rows → ∃ rowD rowO : List (Int × R), ∀ (Xd Zd Xo Zo : List (Int × R)) (marker : List Int),
        (marker.length : Int) = B.diag.cols + s.2.2.length → (∀ m ∈ marker.take B.diag.cols.toNat, m < Xd.length) →
        (∀ m ∈ marker.drop B.diag.cols.toNat, m < Xo.length) →
        ∃ mk', Par.fillRowT A B s.1 s.2.1 mapBC (decide (A.diag.rows = B.diag.cols)) i
            (⟨(Xd ++ List.replicate rowD.length (0, 0) ++ Zd).map Prod.fst, (Xd ++ List.replicate rowD.length (0, 0) ++ Zd).map Prod.snd,
              (Xo ++ List.replicate rowO.length (0, 0) ++ Zo).map Prod.fst, (Xo ++ List.replicate rowO.length (0, 0) ++ Zo).map Prod.snd⟩,
              ⟨marker, Xd.length, Xo.length⟩)
          = .ok (⟨(Xd ++ rowD ++ Zd).map Prod.fst, (Xd ++ rowD ++ Zd).map Prod.snd, (Xo ++ rowO ++ Zo).map Prod.fst, (Xo ++ rowO ++ Zo).map Prod.snd⟩,
              ⟨mk', ((Xd.length + rowD.length : Nat) : Int), ((Xo.length + rowO.length : Nat) : Int)⟩) := by
  obtain ⟨mapC, mp, N, red, reo, hN, s1, p1, S⟩ := Par.mult_setup srt hs search hsearch A B ext _ _ _ _ _ _ _ _ _ _ _ hA hB hk hext
  refine ⟨_, mp, s1, p1, ?_⟩
  intro i h0 h1
  obtain ⟨k, rfl⟩ : ∃ k : Nat, i = k := ⟨i.toNat, by omega⟩
  have hkl : k < A.diag.rowsL.length := by rw [Csr.length_rowsL]; omega
  refine ⟨(Par.evSide false (Par.allEvs (decide (A.diag.rows = B.diag.cols)) mp A.diag.rowsL A.offd.rowsL B.diag.rowsL B.offd.rowsL red reo k)).foldl accum [],
    (Par.evSide true (Par.allEvs (decide (A.diag.rows = B.diag.cols)) mp A.diag.rowsL A.offd.rowsL B.diag.rowsL B.offd.rowsL red reo k)).foldl accum [], ?_⟩
  intro Xd Zd Xo Zo marker hm h2 h3
  simp only at hm
  rw [hN, Int.toNat_natCast] at h2 h3
  rw [hN] at hm
  have own : Par.Own N mapC.length Xd.length Xo.length ⟨marker, Xd.length, Xo.length⟩ := by
    refine ⟨by simp only; omega, rfl, rfl, ?_, ?_⟩
    · intro c hc
      have hl : c < marker.length := by omega
      refine ⟨marker[c], by simp [hl], ?_⟩
      simp only [List.map_nil, List.not_mem_nil, if_false]
      exact h2 _ (List.mem_take_iff_getElem.mpr ⟨c, by omega, rfl⟩)
    · intro c hc
      have hl : N + c < marker.length := by omega
      refine ⟨marker[N + c], by simp [hl], ?_⟩
      simp only [List.map_nil, List.not_mem_nil, if_false]
      exact h3 _ (List.mem_drop_iff_getElem.mpr ⟨c, by omega, rfl⟩)
  obtain ⟨s', b1, b2⟩ := S.row_any hkl Xd Zd Xo Zo own rfl rfl
  refine ⟨s'.marker, ?_⟩
  unfold Par.fillRowT
  simp only
  rw [b1, ok_bind, b2.diag, b2.offd]

namespace Par

theorem mapM_zip_eq {β γ δ : Type} {f : β × γ → Res δ} {g : β → Res δ} (l : List β) (ss : List γ) (hl : ss.length = l.length)
    (h : ∀ p (h1 : p < l.length) (h2 : p < ss.length), f (l[p], ss[p]) = g l[p]) : (l.zip ss).mapM f = l.mapM g := by
  induction l generalizing ss with
  | nil => simp
  | cons b l ih =>
    cases ss with
    | nil => simp at hl
    | cons c ss =>
      have h0 := h 0 (by simp) (by simp)
      simp only [List.getElem_cons_zero] at h0
      rw [List.zip_cons_cons, List.mapM_cons, List.mapM_cons, h0, ih ss (by simpa using hl) (fun p h1 h2 => by
        have := h (p + 1) (by simpa using h1) (by simpa using h2)
        simpa using this)]

end Par

/-- **C136.**  `A.Mult(B)` on all processes with threads (C76): however the threads of the processes interleave, the result is that of one thread per process, and
so the matrix product. -/
theorem C136_parMult [NonUnitalNonAssocSemiring R] (T : Nat) (hT : 0 < T) (Ws : List Par.Schedules) (srt : Csr.Sorter) (hs : IsSort srt)
    (search : List Int → Int → Int) (hsearch : IsSearch search) (reorder : Csr R → Csr R) (hre : Reorders reorder)
    (extract : List (ParMat R) → ParMat R → Csr R) (As Bs : List (ParMat R)) (ro ko co : List Int)
    (hA : Par.IsDist As ro ko) (hB : Par.IsDist Bs ko co) (hlen : As.length = Bs.length) (hWs : Ws.length = As.length)
    (hW : ∀ p (hp : p < As.length) (hp' : p < Ws.length), Ws[p].Complete As[p].offd.cols As[p].diag.rows T)
    (hext : As.length > 1 → ∀ A ∈ As, Par.IsExtract extract Bs (vecAt co Bs.length) A) :
    Par.parMultT T Ws srt search reorder extract As Bs = Par.parMult srt search reorder extract As Bs ∧
    ∃ Cs, Par.parMultT T Ws srt search reorder extract As Bs = .ok Cs ∧ Cs.length = As.length ∧ Par.IsDist Cs ro co ∧
      ∀ g c, Par.globalCoef Cs g c
        = ∑ k ∈ Finset.Ico (0 : Int) (vecAt ko As.length), Par.globalCoef As g k * Par.globalCoef Bs k c := by
  have key : Par.parMultT T Ws srt search reorder extract As Bs = Par.parMult srt search reorder extract As Bs := by
    unfold Par.parMultT Par.parMult
    refine Par.mapM_zip_eq (f := fun p : (ParMat R × ParMat R) × Par.Schedules =>
      Par.multLocalT T p.2 srt search reorder p.1.1 p.1.2 (if As.length > 1 then extract Bs p.1.1 else Par.nullCsr)) (As.zip Bs) Ws (by simp; omega) ?_
    intro p h1 h2
    have hp : p < As.length := by simp at h1; omega
    have hp' : p < Bs.length := by omega
    have wA := hA.share p hp
    have wB := hB.share p hp'
    rw [← hlen] at wB
    simp only [List.getElem_zip]
    refine C136_local T hT _ srt hs search hsearch reorder As[p] Bs[p] _ _ _ _ _ _ _ _ _ _ _ _ wA wB rfl ?_ (hW p hp h2)
    by_cases h1 : As.length > 1
    · right
      rw [if_pos h1]
      obtain ⟨a, b, c, _⟩ := hext h1 As[p] (List.getElem_mem hp)
      rw [← hlen] at c
      exact ⟨a, b, c⟩
    · left
      have hone : As.length = 1 := by omega
      have hp0 : p = 0 := by omega
      rw [List.eq_nil_iff_forall_not_mem]
      intro c hc
      have h6 := wA.map_range c hc
      have h3 := wA.map_other c hc
      have h4 := hA.cols_first
      rw [hone] at h6
      subst hp0
      have h5 : 0 ≤ c ∧ c < vecAt ko 1 := h6
      simp only [Nat.cast_zero, zero_add] at h3
      omega
  refine ⟨key, ?_⟩
  rw [key]
  exact C76_parMult srt hs search hsearch reorder hre extract As Bs ro ko co hA hB hlen hext

namespace Par

/-- Two threads, on one row of the operands of C76: thread 0 has it. -/
def exSchedules : Schedules := ⟨[0], [1, 0], [0, 1], [1, 1, 0], [0], [0, 1], [1, 0]⟩

/-- One process with three rows: `[[1, 0, 0], [0, 2, 0], [4, 0, 3]]` times itself. -/
def exSq : ParMat Int := ⟨3, 3, [0, 3, 3], [0, 3, 3], ⟨3, 3, [0, 1, 2, 4], [0, 1, 2, 0], [1, 2, 3, 4]⟩, ⟨3, 0, [0, 0, 0, 0], [], []⟩, []⟩

/-- Two threads on three rows, the rows of thread 1 first. -/
def exSchedules3 : Schedules := ⟨[], [], [], [], [1, 0, 0], [0, 1, 0], [0, 1, 0]⟩

end Par

example : (∀ p (hp : p < Par.exA.length) (hp' : p < [Par.exSchedules, Par.exSchedules].length),
      [Par.exSchedules, Par.exSchedules][p].Complete Par.exA[p].offd.cols Par.exA[p].diag.rows 2) ∧
    Par.parMultT 2 [Par.exSchedules, Par.exSchedules] Par.exSort Par.exSearch id Par.exExtract Par.exA Par.exB = .ok Par.exC := by
  refine ⟨?_, by decide +kernel⟩
  intro p hp hp'
  rcases p with _ | _ | p
  · show Par.exSchedules.Complete 1 1 2
    unfold Par.Schedules.Complete Par.Complete; decide
  · show Par.exSchedules.Complete 1 1 2
    unfold Par.Schedules.Complete Par.Complete; decide
  · exact absurd hp (by simp [Par.exA])

example : Par.exSchedules3.Complete 0 3 2 ∧
    Par.multLocalT 2 Par.exSchedules3 Par.exSort Par.exSearch id Par.exSq Par.exSq Par.nullCsr
      = .ok ⟨3, 3, [0, 3, 3], [0, 3, 3], ⟨3, 3, [0, 1, 2, 4], [0, 1, 2, 0], [1, 4, 9, 16]⟩, ⟨3, 0, [0, 0, 0, 0], [], []⟩, []⟩ := by
  refine ⟨by unfold Par.Schedules.Complete Par.Complete; decide, by decide +kernel⟩

/-- **C136.**  `RowSizes` takes the number of threads from `hypre_NumThreads()` before the parallel region.  If fewer threads run the region — here one instead of
two — the rows of the others are not counted: the row pointers are wrong. -/
theorem C136_fewer_threads : ∃ (A B : ParMat Int), A.WF 0 3 3 0 3 3 ∧ B.WF 0 3 3 0 3 3 ∧ ∃ W : Par.Schedules, W.count = [0, 0] ∧ W.add = [0, 0] ∧
    Par.rowSizes A B ⟨0, 3, [0], [], []⟩ ⟨0, 0, [0], [], []⟩ [] true 0 = .ok ([0, 1, 2, 4], [0, 0, 0, 0]) ∧
    Par.rowSizesT 2 W A B ⟨0, 3, [0], [], []⟩ ⟨0, 0, [0], [], []⟩ [] true 0 = .ok ([0, 1, 0, 2], [0, 0, 0, 0]) := by
  have w : Par.exSq.WF 0 3 3 0 3 3 := by constructor <;> first | decide | exact ⟨by decide, by decide, by decide, by decide⟩
  exact ⟨Par.exSq, Par.exSq, w, w, ⟨[], [], [], [], [0, 0], [0, 0], []⟩, rfl, rfl, by decide +kernel, by decide +kernel⟩

end Linalg
