import Verif.Props.ParMatrix

/-! # Sums of distributed matrices -/

namespace Linalg
open Cpp

variable {α R : Type}

namespace Par

/-- The entries `ParAdd` collects: those whose column was seen before are scaled. -/
def seenScale [Mul R] (val : R) : List Int → List (Int × Int × R) → List (Int × Int × R)
  | _, [] => []
  | seen, e :: es => (e.1, e.2.1, if e.2.1 ∈ seen then val * e.2.2 else e.2.2) :: seenScale val (seen ++ [e.2.1]) es

theorem seenScale_cols [Mul R] (val : R) (seen : List Int) (es : List (Int × Int × R)) :
    (seenScale val seen es).map (fun t => t.2.1) = es.map (fun t => t.2.1) := by
  induction es generalizing seen with
  | nil => rfl
  | cons e es ih => simp [seenScale, ih]

theorem tripleCoef_seenScale [Ring R] (val : R) (seen : List Int) (es : List (Int × Int × R)) (i c : Int) :
    tripleCoef (seenScale val seen es) i c = val * tripleCoef es i c
      + if c ∈ seen then 0 else match es.find? (fun e => e.2.1 = c) with
        | some e => if e.1 = i then e.2.2 - val * e.2.2 else 0
        | none => 0 := by
  induction es generalizing seen with
  | nil => simp [seenScale]
  | cons e es ih =>
    rw [seenScale, tripleCoef_cons, ih, tripleCoef_cons]
    by_cases hc : e.2.1 = c
    · rw [List.find?_cons_of_pos (by simpa using hc)]
      have hin : c ∈ seen ++ [e.2.1] := by simp [hc]
      rw [if_pos hin]
      by_cases hs : c ∈ seen
      · by_cases hi : e.1 = i <;> simp [hc, hs, hi, mul_add]
      · by_cases hi : e.1 = i <;> simp [hc, hs, hi, mul_add]
        abel
    · rw [List.find?_cons_of_neg (by simpa using hc)]
      have hin : (c ∈ seen ++ [e.2.1]) ↔ c ∈ seen := by
        simp only [List.mem_append, List.mem_singleton]
        exact ⟨fun h => h.resolve_right (fun e' => hc e'.symm), Or.inl⟩
      simp [hc, hin]

theorem diagToCoo_ok [Mul R] (val : R) (n : Int) (rs : List (List (Int × R))) (hn : ∀ r ∈ rs, ∀ e ∈ r, 0 ≤ e.1 ∧ e.1 < n)
    (C : Coo R) (hr : C.rows = rs.length) (hc : C.cols = n) :
    diagToCoo (rs.length : Int) val (Csr.ofRows n rs) C
      = .ok { C with entries := C.entries ++ (triplesL rs).map (fun t => (t.1, t.2.1, val * t.2.2)) } := by
  unfold diagToCoo
  have h1 := rowLoop_ofRows n rs C (fun i j C => (do
      let c ← rd (Csr.ofRows n rs).indices j
      let d ← rd (Csr.ofRows n rs).data j
      C.add i c (val * d) : Res (Coo R))) (fun i e C => C.add i e.1 (val * e.2)) (by
    intro k m hk hm s
    rw [rd_indices_ofRows n rs k m hk hm, rd_data_ofRows n rs k m hk hm]; rfl)
  rw [show (Csr.ofRows n rs).rows = (rs.length : Int) from rfl] at h1
  rw [h1]
  obtain ⟨C', h2, h3⟩ := foldlM_inv (l := triplesL rs) (f := fun (s : Coo R) t => s.add t.1 t.2.1 (val * t.2.2))
    (fun pre s => s = { C with entries := C.entries ++ pre.map (fun t => (t.1, t.2.1, val * t.2.2)) }) (s := C) (by simp) (by
      rintro pre t post s hl rfl
      have ht : t ∈ triplesL rs := by rw [hl]; simp
      obtain ⟨k, hk, e1, e2⟩ := mem_triplesL.mp ht
      have := hn _ (List.getElem_mem hk) _ e2
      refine ⟨_, Coo.add_ok (by omega) this.1 (fun _ => ⟨by simp only [hr]; omega, by simp only [hc]; exact this.2⟩), ?_⟩
      simp)
  rw [h2, h3]

theorem offdFold [Mul R] (N : Nat) (val : R) (f : OffdState R → Int × Int × R → Res (OffdState R))
    (es : List (Int × Int × R)) (items : List (Int × Int × R)) (st : OffdState R) (h : OffInv N items st.offd st.colMap st.marker)
    (aMap : List Int) (hes : ∀ t ∈ es, 0 ≤ t.1 ∧ 0 ≤ t.2.1 ∧ t.2.1 < (aMap.length : Int))
    (hmap : ∀ g ∈ aMap, 0 ≤ g ∧ g < (N : Int))
    (hf : ∀ t ∈ es, ∀ st, f st t = (do
      let g ← rd aMap t.2.1
      let m ← rd st.marker g
      if m ≥ 0 then
        let C ← st.offd.add t.1 m (val * t.2.2)
        .ok { st with offd := C }
      else
        let C ← st.offd.add t.1 (st.colMap.length : Int) t.2.2
        let marker ← wr st.marker g (st.colMap.length : Int)
        .ok ⟨C, st.colMap ++ [g], marker⟩)) :
    ∃ st', es.foldlM f st = .ok st' ∧
      OffInv N (items ++ seenScale val (items.map (fun t => t.2.1)) (glob aMap es)) st'.offd st'.colMap st'.marker := by
  induction es generalizing items st with
  | nil => exact ⟨st, rfl, by simpa [glob, seenScale] using h⟩
  | cons t es ih =>
    have ht := hes t (by simp)
    have hg := hmap (vecAt aMap t.2.1) (by rw [vecAt_int aMap ht.2.1 ht.2.2]; exact List.getElem_mem _)
    rw [List.foldlM_cons, hf t (by simp), rd_vecAt aMap ht.2.1 ht.2.2, ok_bind]
    have hseen : vecAt aMap t.2.1 ∈ items.map (fun t => t.2.1) ↔ vecAt aMap t.2.1 ∈ st.colMap := by
      rw [h.colMap_eq, mem_firstOcc]
    have hcons : glob aMap (t :: es) = (t.1, vecAt aMap t.2.1, t.2.2) :: glob aMap es := rfl
    have next : ∀ (v : R) (st1 : OffdState R), v = (if vecAt aMap t.2.1 ∈ items.map (fun t => t.2.1) then val * t.2.2 else t.2.2) →
        OffInv N (items ++ [(t.1, vecAt aMap t.2.1, v)]) st1.offd st1.colMap st1.marker →
        ∃ st', es.foldlM f st1 = .ok st' ∧
          OffInv N (items ++ seenScale val (items.map (fun t => t.2.1)) (glob aMap (t :: es))) st'.offd st'.colMap st'.marker := by
      intro v st1 hv h1
      obtain ⟨st', k1, k2⟩ := ih (items ++ [(t.1, vecAt aMap t.2.1, v)]) st1 h1 (fun x hx => hes x (by simp [hx]))
        (fun x hx => hf x (by simp [hx]))
      refine ⟨st', k1, ?_⟩
      rw [hcons, seenScale]
      rw [List.map_append, List.map_singleton, List.append_assoc, List.singleton_append, hv] at k2
      exact k2
    by_cases hm : vecAt aMap t.2.1 ∈ st.colMap
    · obtain ⟨m, m0, k1, k2, k3⟩ := h.old hm ht.1 (val * t.2.2)
      rw [k1, ok_bind, if_pos (by omega), k2, ok_bind, ok_bind]
      exact next _ _ (by rw [if_pos (hseen.mpr hm)]) k3
    · obtain ⟨k1, k2, mk, k3, k4⟩ := h.new hm hg.1 hg.2 ht.1 t.2.2
      rw [k1, ok_bind, if_neg (by omega), k2, ok_bind, k3, ok_bind, ok_bind]
      exact next _ _ (by rw [if_neg (fun x => hm (hseen.mp x))]) k4

theorem offdToCoo_ok [Mul R] (N : Nat) (val : R) (rs : List (List (Int × R))) (aMap : List Int)
    (hn : ∀ r ∈ rs, ∀ e ∈ r, 0 ≤ e.1 ∧ e.1 < (aMap.length : Int)) (hmap : ∀ g ∈ aMap, 0 ≤ g ∧ g < (N : Int))
    (items : List (Int × Int × R)) (st : OffdState R) (h : OffInv N items st.offd st.colMap st.marker) :
    ∃ st', offdToCoo (rs.length : Int) val (Csr.ofRows (aMap.length : Int) rs) aMap st = .ok st' ∧
      OffInv N (items ++ seenScale val (items.map (fun t => t.2.1)) (glob aMap (triplesL rs))) st'.offd st'.colMap st'.marker := by
  unfold offdToCoo
  have h1 := rowLoop_ofRows (aMap.length : Int) rs st (fun i j st => offdEntry val (Csr.ofRows (aMap.length : Int) rs) aMap i j st)
    (fun i e st => (do
      let g ← rd aMap e.1
      let m ← rd st.marker g
      if m ≥ 0 then
        let C ← st.offd.add i m (val * e.2)
        .ok { st with offd := C }
      else
        let C ← st.offd.add i (st.colMap.length : Int) e.2
        let marker ← wr st.marker g (st.colMap.length : Int)
        .ok ⟨C, st.colMap ++ [g], marker⟩)) (by
    intro k m hk hm s
    unfold offdEntry
    rw [rd_indices_ofRows _ rs k m hk hm, rd_data_ofRows _ rs k m hk hm]; rfl)
  rw [show (Csr.ofRows (aMap.length : Int) rs).rows = (rs.length : Int) from rfl] at h1
  rw [h1]
  refine offdFold N val _ (triplesL rs) items st h aMap ?_ hmap (fun _ _ _ => rfl)
  intro t ht
  obtain ⟨k, hk, e1, e2⟩ := mem_triplesL.mp ht
  exact ⟨by omega, hn _ (List.getElem_mem hk) _ e2⟩

theorem clearMarker (N : Nat) (cm marker cm' : List Int) (hlen : marker.length = N) (hp : ∀ g, g ∈ cm' ↔ g ∈ cm)
    (hr : ∀ g ∈ cm, 0 ≤ g ∧ g < (N : Int)) (hnew : ∀ g, 0 ≤ g → g < (N : Int) → g ∉ cm → rd marker g = .ok (-1)) :
    cm'.foldlM (fun m col => wr m col (-1)) marker = .ok (List.replicate N (-1)) := by
  obtain ⟨m', h1, h2, h3⟩ := foldlM_inv (l := cm') (f := fun m col => wr m col (-1 : Int))
    (fun pre m => m.length = N ∧ ∀ g, 0 ≤ g → g < (N : Int) → (g ∉ cm ∨ g ∈ pre) → rd m g = .ok (-1)) (s := marker)
    ⟨hlen, fun g g0 g1 h => hnew g g0 g1 (by simpa using h)⟩ (by
      rintro pre x post m hl ⟨e1, e2⟩
      have hx := hr x ((hp x).mp (by rw [hl]; simp))
      refine ⟨_, wr_int hx.1 (by omega), by simpa using e1, fun g g0 g1 hg => ?_⟩
      rw [rd_eq_ok]
      refine ⟨g0, ?_⟩
      by_cases hgx : g = x
      · rw [hgx, List.getElem?_set_self (by omega)]
      · rw [List.getElem?_set_ne (by omega)]
        refine (rd_eq_ok.mp (e2 g g0 g1 ?_)).2
        rcases hg with hg | hg
        · exact Or.inl hg
        · exact Or.inr (by simpa [hgx] using hg))
  rw [h1]
  congr 1
  apply List.ext_getElem
  · simp [h2]
  · intro k k1 k2
    have hk : k < N := by omega
    have := h3 (k : Int) (by omega) (by omega) (by
      by_cases hc : (k : Int) ∈ cm
      · exact Or.inr ((hp _).mpr hc)
      · exact Or.inl hc)
    rw [rd_nat k1] at this
    rw [Except.ok.inj this]; simp

end Par

theorem ParMat.offdEntries_eq (M : ParMat α) (n : Int) (rs : List (List (Int × α))) (h : M.offd = Csr.ofRows n rs) :
    M.offdEntries = glob M.colMap (triplesL rs) := by
  unfold ParMat.offdEntries
  rw [h]
  have hr : (Csr.ofRows n rs).rows.toNat = rs.length := by simp [Csr.ofRows]
  rw [hr]
  unfold glob triplesL
  rw [List.map_flatten, List.map_map, List.flatMap_def]
  congr 1
  apply List.ext_getElem
  · simp
  · intro k h1 h2
    have hk : k < rs.length := by simpa using h1
    simp only [List.getElem_map, getElem_iota, List.getElem_zipIdx, Function.comp, List.map_map]
    rw [Csr.row_ofRows n rs k hk]
    simp

theorem ParMat.coef_eq [AddCommMonoid R] {M : ParMat R} {r0 r1 rn c0 c1 cn : Int} (h : M.WF r0 r1 rn c0 c1 cn) (i c : Int) :
    M.coef i c = (if c0 ≤ c ∧ c < c1 then M.diag.coef i (c - c0) else 0) + tripleCoef M.offdEntries i c := by
  obtain ⟨n, rs, hn, hrs, he⟩ := h.offd_wf.exists_rows
  have hcols : n = (M.colMap.length : Int) := by
    have := h.offd_cols
    rw [he] at this; exact this
  subst hcols
  rw [M.offdEntries_eq _ rs he, tripleCoef_glob M.colMap (M.colMap.length : Int) (triplesL rs) (by
    intro t ht
    obtain ⟨k, hk, e1, e2⟩ := mem_triplesL.mp ht
    exact hrs _ (List.getElem_mem hk) _ e2)]
  unfold ParMat.coef
  rw [h.col_starts.eq, he]
  simp only [tripleCoef_triplesL (M.colMap.length : Int)]
  rfl

theorem ParMat.WF.entry_cols {M : ParMat α} {r0 r1 rn c0 c1 cn : Int} (h : M.WF r0 r1 rn c0 c1 cn) :
    ∀ e ∈ M.offdEntries, e.2.1 ∈ M.colMap := by
  intro e he
  unfold ParMat.offdEntries at he
  rw [List.mem_flatMap] at he
  obtain ⟨i, _, he⟩ := he
  obtain ⟨x, hx, rfl⟩ := List.mem_map.mp he
  have := (Csr.mem_row_ok h.offd_wf hx)
  have h2 := h.offd_cols
  simp only
  have hb : 0 ≤ x.1 ∧ x.1 < (M.colMap.length : Int) := by
    rw [← h2]; exact this.2.2
  rw [vecAt_int M.colMap hb.1 hb.2]
  exact List.getElem_mem _

/-- The sum of the entries `seenScale` produced for two matrices in turn. -/
theorem ParMat.sum_seenScale [Ring R] (alpha beta : R) (A B : ParMat R) (i c : Int) :
    tripleCoef (Par.seenScale alpha [] A.offdEntries
        ++ Par.seenScale beta ((Par.seenScale alpha [] A.offdEntries).map (fun t => t.2.1)) B.offdEntries) i c
      = alpha * tripleCoef A.offdEntries i c + beta * tripleCoef B.offdEntries i c
        + (A.firstAt i c - alpha * A.firstAt i c)
        + (if ∃ e ∈ A.offdEntries, e.2.1 = c then 0 else B.firstAt i c - beta * B.firstAt i c) := by
  have hf : ∀ (val : R) (M : ParMat R), (match M.offdEntries.find? (fun e => e.2.1 = c) with
      | some e => if e.1 = i then e.2.2 - val * e.2.2 else 0
      | none => 0) = M.firstAt i c - val * M.firstAt i c := by
    intro val M
    unfold ParMat.firstAt
    cases M.offdEntries.find? (fun e => e.2.1 = c) with
    | none => simp
    | some e => by_cases h : e.1 = i <;> simp [h]
  rw [tripleCoef_append, Par.tripleCoef_seenScale, Par.tripleCoef_seenScale, Par.seenScale_cols, hf, hf]
  have hm : c ∈ A.offdEntries.map (fun t => t.2.1) ↔ ∃ e ∈ A.offdEntries, e.2.1 = c := by simp
  simp only [hm, List.not_mem_nil, if_false]
  abel

/-- **C65.**  What `ParAdd(alpha, A, beta, B, marker)` returns on a process, exactly: for all scalars and all matrices with the same
layout it accepts, the result is well formed, the marker is filled with -1, and the coefficients are `alpha A + beta B` except that the
first stored entry of every off-process column (first of `A`, or of `B` if `A` has none) counts with factor 1. -/
theorem C65_exact [Ring R] (srt : Csr.Sorter) (hs : IsSort srt) (reorder : Csr R → Csr R) (hre : Reorders reorder) (alpha beta : R)
    (A B : ParMat R) (r0 r1 rn c0 c1 cn : Int) (hA : A.WF r0 r1 rn c0 c1 cn) (hB : B.WF r0 r1 rn c0 c1 cn) (marker : List Int)
    (hmk : cn ≤ (marker.length : Int)) :
    ∃ M, Par.parAddMarker srt reorder alpha A beta B marker = .ok (M, List.replicate marker.length (-1)) ∧
      M.WF r0 r1 rn c0 c1 cn ∧ ∀ i c, M.coef i c = alpha * A.coef i c + beta * B.coef i c
        + (A.firstAt i c - alpha * A.firstAt i c)
        + (if ∃ e ∈ A.offdEntries, e.2.1 = c then 0 else B.firstAt i c - beta * B.firstAt i c) := by
  obtain ⟨nA, dA, _, hdA, eA⟩ := hA.diag_wf.exists_rows
  obtain ⟨nB, dB, _, hdB, eB⟩ := hB.diag_wf.exists_rows
  obtain ⟨mA, oA, _, hoA, fA⟩ := hA.offd_wf.exists_rows
  obtain ⟨mB, oB, _, hoB, fB⟩ := hB.offd_wf.exists_rows
  have gA : A.globalCols = cn := by unfold ParMat.globalCols; rw [hA.col_starts.eq]; rfl
  have gB : B.globalCols = cn := by unfold ParMat.globalCols; rw [hB.col_starts.eq]; rfl
  have qA : A.globalRows = rn := by unfold ParMat.globalRows; rw [hA.row_starts.eq]; rfl
  have qB : B.globalRows = rn := by unfold ParMat.globalRows; rw [hB.row_starts.eq]; rfl
  have lA : (dA.length : Int) = r1 - r0 := by rw [← hA.diag_rows, eA]; rfl
  have lB : (dB.length : Int) = r1 - r0 := by rw [← hB.diag_rows, eB]; rfl
  have kA : (oA.length : Int) = r1 - r0 := by rw [← hA.offd_rows, fA]; rfl
  have kB : (oB.length : Int) = r1 - r0 := by rw [← hB.offd_rows, fB]; rfl
  have wA : nA = c1 - c0 := by rw [← hA.diag_cols, eA]; rfl
  have wB : nB = c1 - c0 := by rw [← hB.diag_cols, eB]; rfl
  have vA : mA = (A.colMap.length : Int) := by rw [← hA.offd_cols, fA]; rfl
  have vB : mB = (B.colMap.length : Int) := by rw [← hB.offd_cols, fB]; rfl
  subst wA vA vB
  subst wB
  have hr01 := hA.row_starts.le
  have hc01 := hA.col_starts.le
  unfold Par.parAddMarker
  rw [hA.rows_eq, hB.rows_eq, hA.cols_eq, hB.cols_eq, gA, gB, qA, qB, hA.row_starts.eq, hB.row_starts.eq, hA.col_starts.eq]
  rw [cassert_true rfl, ok_bind, cassert_true rfl, ok_bind, cassert_true rfl, ok_bind, cassert_true rfl, ok_bind, cassert_true rfl,
    ok_bind, cassert_true hmk, ok_bind]
  unfold Coo.ofSize
  rw [cassert_true (by omega), ok_bind, cassert_true (by omega), ok_bind, ok_bind]
  -- the diagonal blocks
  have s1 := Par.diagToCoo_ok alpha (c1 - c0) dA hdA (⟨r1 - r0, c1 - c0, true, []⟩ : Coo R) lA.symm rfl
  rw [lA] at s1
  rw [eA, s1, ok_bind]
  have s2 := Par.diagToCoo_ok beta (c1 - c0) dB hdB (⟨r1 - r0, c1 - c0, true,
    [] ++ (triplesL dA).map (fun t => (t.1, t.2.1, alpha * t.2.2))⟩ : Coo R) lB.symm rfl
  rw [lB] at s2
  rw [eB, s2, ok_bind]
  -- the other blocks
  have rangeA : ∀ g ∈ A.colMap, 0 ≤ g ∧ g < (marker.length : Int) := fun g hg => by
    have := hA.map_range g hg; omega
  have rangeB : ∀ g ∈ B.colMap, 0 ≤ g ∧ g < (marker.length : Int) := fun g hg => by
    have := hB.map_range g hg; omega
  obtain ⟨st1, t1, i1⟩ := Par.offdToCoo_ok marker.length alpha oA A.colMap hoA rangeA []
    (⟨Coo.new, [], List.replicate marker.length (-1)⟩ : Par.OffdState R) (Par.OffInv.init _)
  rw [kA] at t1
  simp only [fA, t1, ok_bind]
  obtain ⟨st2, t2, i2⟩ := Par.offdToCoo_ok marker.length beta oB B.colMap hoB rangeB _ st1 i1
  rw [kB] at t2
  simp only [fB, t2, ok_bind]
  rw [List.nil_append, List.map_nil, ← A.offdEntries_eq _ oA fA, ← B.offdEntries_eq _ oB fB] at i2
  unfold Coo.setSize
  rw [cassert_true (by omega), ok_bind, cassert_true (by omega), ok_bind, ok_bind]
  -- rows of the collected entries
  have hAll : ∀ e ∈ glob st2.colMap st2.offd.entries, e.1 < r1 - r0 ∧ (e.2.1 ∈ A.colMap ∨ e.2.1 ∈ B.colMap) := by
    intro e he
    rw [i2.glob_eq] at he
    have scale : ∀ (val : R) (seen : List Int) (es : List (Int × Int × R)) (e : Int × Int × R), e ∈ Par.seenScale val seen es →
        ∃ x ∈ es, e.1 = x.1 ∧ e.2.1 = x.2.1 := by
      intro val seen es
      induction es generalizing seen with
      | nil => intro e he; simp [Par.seenScale] at he
      | cons y es ih =>
        intro e he
        rw [Par.seenScale, List.mem_cons] at he
        rcases he with rfl | he
        · exact ⟨y, by simp, rfl, rfl⟩
        · obtain ⟨x, hx, h⟩ := ih _ e he
          exact ⟨x, by simp [hx], h⟩
    have rowOf : ∀ (M : ParMat R), M.offd.rows = r1 - r0 → ∀ x ∈ M.offdEntries, x.1 < r1 - r0 := by
      intro M hM x hx
      unfold ParMat.offdEntries at hx
      rw [List.mem_flatMap] at hx
      obtain ⟨i, hi, hx⟩ := hx
      obtain ⟨y, _, rfl⟩ := List.mem_map.mp hx
      have := (mem_iota.mp hi).2
      simp only
      omega
    rcases List.mem_append.mp he with he | he
    · obtain ⟨x, hx, h1, h2⟩ := scale _ _ _ _ he
      exact ⟨by rw [h1]; exact rowOf A hA.offd_rows x hx, Or.inl (by rw [h2]; exact hA.entry_cols x hx)⟩
    · obtain ⟨x, hx, h1, h2⟩ := scale _ _ _ _ he
      exact ⟨by rw [h1]; exact rowOf B hB.offd_rows x hx, Or.inr (by rw [h2]; exact hB.entry_cols x hx)⟩
  have cmAll : ∀ g ∈ st2.colMap, g ∈ A.colMap ∨ g ∈ B.colMap := by
    intro g hg
    rw [i2.colMap_eq, mem_firstOcc] at hg
    obtain ⟨e, he, rfl⟩ := List.mem_map.mp hg
    rw [← i2.glob_eq] at he
    exact (hAll e he).2
  have hW : ({ st2.offd with sizeSet := true, rows := r1 - r0, cols := (st2.colMap.length : Int) } : Coo R).WF := by
    refine ⟨by simp only; omega, by simp only; omega, fun e he => ⟨i2.entry_rows e he, (i2.entry_cols e he).1⟩, fun _ e he => ⟨?_, ?_⟩⟩
    · have := (hAll (e.1, vecAt st2.colMap e.2.1, e.2.2) (List.mem_map.mpr ⟨e, he, rfl⟩)).1
      exact this
    · exact (i2.entry_cols e he).2
  obtain ⟨cm', C', u1, u2, u3, u4, u5, u6, u7, u8⟩ := Par.sortColumnMap_ok srt hs st2.colMap _ hW (by
    rw [Coo.findSize_sized rfl])
  rw [u1, ok_bind]
  simp only
  rw [Par.clearMarker marker.length st2.colMap st2.marker cm' i2.marker_len (fun g => u2.mem_iff)
    (fun g hg => (cmAll g hg).elim (rangeA g) (rangeB g)) i2.marker_new, ok_bind]
  -- ToSparse
  have hWd : (⟨r1 - r0, c1 - c0, true, [] ++ (triplesL dA).map (fun t => (t.1, t.2.1, alpha * t.2.2))
      ++ (triplesL dB).map (fun t => (t.1, t.2.1, beta * t.2.2))⟩ : Coo R).WF := by
    have side : ∀ (rs : List (List (Int × R))) (val : R), (rs.length : Int) = r1 - r0 →
        (∀ r ∈ rs, ∀ e ∈ r, 0 ≤ e.1 ∧ e.1 < c1 - c0) → ∀ e ∈ (triplesL rs).map (fun t => (t.1, t.2.1, val * t.2.2)),
        (0 ≤ e.1 ∧ 0 ≤ e.2.1) ∧ (e.1 < r1 - r0 ∧ e.2.1 < c1 - c0) := by
      intro rs val hl hb e he
      obtain ⟨t, ht, rfl⟩ := List.mem_map.mp he
      obtain ⟨k, hk, e1, e2⟩ := mem_triplesL.mp ht
      have := hb _ (List.getElem_mem hk) _ e2
      simp only
      omega
    have both : ∀ e ∈ [] ++ (triplesL dA).map (fun t => (t.1, t.2.1, alpha * t.2.2))
        ++ (triplesL dB).map (fun t => (t.1, t.2.1, beta * t.2.2)),
        (0 ≤ e.1 ∧ 0 ≤ e.2.1) ∧ (e.1 < r1 - r0 ∧ e.2.1 < c1 - c0) := by
      intro e he
      rw [List.nil_append, List.mem_append] at he
      exact he.elim (side dA alpha lA hdA e) (side dB beta lB hdB e)
    exact ⟨by simp only; omega, by simp only; omega, fun e he => (both e he).1, fun _ e he => (both e he).2⟩
  obtain ⟨D, d1, d2, d3, d4, _, d6⟩ := C17_toSparse _ hWd
  simp only [d1, ok_bind]
  have hlen : cm'.length = st2.colMap.length := u2.length_eq
  have hWo : C'.WF := by
    refine ⟨by rw [u4]; simp only; omega, by rw [u5]; simp only; omega, ?_, ?_⟩
    · intro e he
      refine ⟨?_, (u7 e he).1⟩
      have : (e.1, vecAt cm' e.2.1, e.2.2) ∈ glob cm' C'.entries := List.mem_map.mpr ⟨e, he, rfl⟩
      rw [u8] at this
      obtain ⟨x, hx, hxe⟩ := List.mem_map.mp this
      have := i2.entry_rows x hx
      rw [show e.1 = x.1 from (congrArg Prod.fst hxe).symm]
      exact this
    · intro _ e he
      refine ⟨?_, by rw [u5]; exact (u7 e he).2⟩
      have : (e.1, vecAt cm' e.2.1, e.2.2) ∈ glob cm' C'.entries := List.mem_map.mpr ⟨e, he, rfl⟩
      rw [u8] at this
      rw [u4]
      exact (hAll _ this).1
  obtain ⟨O, o1, o2, o3, o4, _, o6⟩ := C17_toSparse _ hWo
  simp only [o1, ok_bind]
  have hsz : C'.findSize = (r1 - r0, (st2.colMap.length : Int)) := by
    rw [Coo.findSize_sized (by rw [u6]), u4, u5]
  rw [Coo.findSize_sized rfl] at d3 d4
  rw [hsz] at o3 o4
  simp only at d3 d4 o3 o4
  have nd : cm'.Nodup := by
    rw [u2.nodup_iff, i2.colMap_eq]; exact nodup_firstOcc _
  have hsorted : cm'.Pairwise (· < ·) := by
    have := List.Pairwise.and u3 nd
    exact this.imp (fun h => lt_of_le_of_ne h.1 h.2)
  obtain ⟨M, hM⟩ := (C74_accepts reorder [r0, r1, rn] [c0, c1, cn] D O cm').mpr
    ⟨r0, r1, rn, c0, c1, cn, hA.row_starts.eq ▸ hA.row_starts, hA.col_starts.eq ▸ hA.col_starts, d3, d4, Or.inr ⟨o3, by rw [o4, hlen]⟩,
      hsorted, fun c hc => (cmAll c (u2.mem_iff.mp hc)).elim (hA.map_range c) (hB.map_range c),
      fun c hc => (cmAll c (u2.mem_iff.mp hc)).elim (hA.map_other c) (hB.map_other c)⟩
  rw [hM, ok_bind]
  obtain ⟨r0', r1', rn', c0', c1', cn', hwf, m1, m2, m3, m4⟩ := C74_result reorder hre _ _ D O d2 o2 cm' M hM
  have er : [r0', r1', rn'] = [r0, r1, rn] := by rw [← hwf.row_starts.eq, m1]
  have ec : [c0', c1', cn'] = [c0, c1, cn] := by rw [← hwf.col_starts.eq, m2]
  simp only [List.cons.injEq, and_true] at er ec
  obtain ⟨rfl, rfl, rfl⟩ := er
  obtain ⟨rfl, rfl, rfl⟩ := ec
  refine ⟨M, rfl, hwf, fun i c => ?_⟩
  rw [m4, ParMat.coef_eq hA, ParMat.coef_eq hB]
  have hoff : (∑ k ∈ Finset.Ico (0 : Int) cm'.length, if vecAt cm' k = c then O.coef i k else 0)
      = tripleCoef (glob cm' C'.entries) i c := by
    rw [tripleCoef_glob cm' (cm'.length : Int) C'.entries (by rw [hlen]; exact u7)]
    apply Finset.sum_congr rfl
    intro k _
    rw [o6]; rfl
  rw [hoff, u8]
  have hg2 : glob st2.colMap st2.offd.entries = _ := i2.glob_eq
  rw [hg2, ParMat.sum_seenScale]
  have hdiag : ∀ j, D.coef i j = alpha * A.diag.coef i j + beta * B.diag.coef i j := by
    intro j
    rw [d6, eA, eB]
    show tripleCoef _ i j = _
    rw [List.nil_append, tripleCoef_append, ← tripleCoef_triplesL, ← tripleCoef_triplesL]
    have sc : ∀ (val : R) (l : List (Int × Int × R)), tripleCoef (l.map (fun t => (t.1, t.2.1, val * t.2.2))) i j = val * tripleCoef l i j := by
      intro val l
      induction l with
      | nil => simp
      | cons t l ih =>
        rw [List.map_cons, tripleCoef_cons, tripleCoef_cons, ih]
        by_cases h : t.1 = i ∧ t.2.1 = j <;> simp [h, mul_add]
    rw [sc, sc]
  by_cases hin : c0' ≤ c ∧ c < c1'
  · rw [if_pos hin, if_pos hin, if_pos hin, hdiag]
    rw [mul_add, mul_add]; abel
  · rw [if_neg hin, if_neg hin, if_neg hin]
    simp only [zero_add]

theorem ParMat.firstAt_zero [Zero R] {M : ParMat R} {i c : Int} (h : ∀ e ∈ M.offdEntries, e.2.1 ≠ c) : M.firstAt i c = 0 := by
  unfold ParMat.firstAt
  rw [List.find?_eq_none.mpr (by intro e he; simpa using h e he)]

/-- `ParAdd` without a marker makes one of the right size. -/
theorem Par.parAdd_exact [Ring R] (srt : Csr.Sorter) (hs : IsSort srt) (reorder : Csr R → Csr R) (hre : Reorders reorder)
    (alpha beta : R) (A B : ParMat R) (r0 r1 rn c0 c1 cn : Int) (hA : A.WF r0 r1 rn c0 c1 cn) (hB : B.WF r0 r1 rn c0 c1 cn) :
    ∃ M, Par.parAdd srt reorder alpha A beta B = .ok M ∧
      M.WF r0 r1 rn c0 c1 cn ∧ ∀ i c, M.coef i c = alpha * A.coef i c + beta * B.coef i c
        + (A.firstAt i c - alpha * A.firstAt i c)
        + (if ∃ e ∈ A.offdEntries, e.2.1 = c then 0 else B.firstAt i c - beta * B.firstAt i c) := by
  have gA : A.globalCols = cn := by unfold ParMat.globalCols; rw [hA.col_starts.eq]; rfl
  have h0 := hA.col_starts.first_nonneg
  have h1 := hA.col_starts.le
  have h2 := hA.col_starts.last_le
  obtain ⟨N, hN⟩ := Int.eq_ofNat_of_zero_le (show 0 ≤ cn by omega)
  obtain ⟨M, m1, m2⟩ := C65_exact srt hs reorder hre alpha beta A B r0 r1 rn c0 c1 cn hA hB (List.replicate N (-1)) (by simp [hN])
  refine ⟨M, ?_, m2⟩
  unfold Par.parAdd
  rw [gA, hN, mkVec_nat, ok_bind, m1]
  rfl

/-- **C65 (partial).**  `ParAdd(alpha, A, beta, B)` represents `alpha A + beta B` on every process if every off-process column that
`A` stores comes with `alpha = 1`, and every one that only `B` stores comes with `beta = 1`.  Missing: other scalars, for which the
claim is false (`C65_false`). -/
theorem C65_add_partial [Ring R] (srt : Csr.Sorter) (hs : IsSort srt) (reorder : Csr R → Csr R) (hre : Reorders reorder)
    (alpha beta : R) (A B : ParMat R) (r0 r1 rn c0 c1 cn : Int) (hA : A.WF r0 r1 rn c0 c1 cn) (hB : B.WF r0 r1 rn c0 c1 cn)
    (ha : alpha = 1 ∨ A.offdEntries = [])
    (hb : beta = 1 ∨ ∀ e ∈ B.offdEntries, ∃ e' ∈ A.offdEntries, e'.2.1 = e.2.1) :
    ∃ M, Par.parAdd srt reorder alpha A beta B = .ok M ∧
      M.WF r0 r1 rn c0 c1 cn ∧ ∀ i c, M.coef i c = alpha * A.coef i c + beta * B.coef i c := by
  obtain ⟨M, m1, m2, m3⟩ := Par.parAdd_exact srt hs reorder hre alpha beta A B r0 r1 rn c0 c1 cn hA hB
  refine ⟨M, m1, m2, fun i c => ?_⟩
  rw [m3]
  have e1 : A.firstAt i c - alpha * A.firstAt i c = 0 := by
    rcases ha with rfl | ha
    · rw [one_mul, sub_self]
    · rw [ParMat.firstAt_zero (by rw [ha]; simp), mul_zero, sub_self]
  have e2 : (if ∃ e ∈ A.offdEntries, e.2.1 = c then 0 else B.firstAt i c - beta * B.firstAt i c) = 0 := by
    by_cases h : ∃ e ∈ A.offdEntries, e.2.1 = c
    · rw [if_pos h]
    · rw [if_neg h]
      rcases hb with rfl | hb
      · rw [one_mul, sub_self]
      · rw [ParMat.firstAt_zero (by
          rintro e he rfl
          exact h (hb e he)), mul_zero, sub_self]
  rw [e1, e2, add_zero, add_zero]

/-- **C65.**  `ParAdd(A, B)` (both factors 1) represents `A + B` on every process, for all matrices with the same layout. -/
theorem C65_add [Ring R] (srt : Csr.Sorter) (hs : IsSort srt) (reorder : Csr R → Csr R) (hre : Reorders reorder)
    (A B : ParMat R) (r0 r1 rn c0 c1 cn : Int) (hA : A.WF r0 r1 rn c0 c1 cn) (hB : B.WF r0 r1 rn c0 c1 cn) :
    ∃ M, Par.parAdd srt reorder 1 A 1 B = .ok M ∧ M.WF r0 r1 rn c0 c1 cn ∧ ∀ i c, M.coef i c = A.coef i c + B.coef i c := by
  obtain ⟨M, m1, m2, m3⟩ := C65_add_partial srt hs reorder hre 1 1 A B r0 r1 rn c0 c1 cn hA hB (Or.inl rfl) (Or.inl rfl)
  exact ⟨M, m1, m2, fun i c => by rw [m3, one_mul, one_mul]⟩

/-- **C65.**  On the columns a process owns the result is right for all scalars. -/
theorem C65_local [Ring R] (srt : Csr.Sorter) (hs : IsSort srt) (reorder : Csr R → Csr R) (hre : Reorders reorder)
    (alpha beta : R) (A B M : ParMat R) (r0 r1 rn c0 c1 cn : Int) (hA : A.WF r0 r1 rn c0 c1 cn) (hB : B.WF r0 r1 rn c0 c1 cn)
    (h : Par.parAdd srt reorder alpha A beta B = .ok M) (i c : Int) (h0 : c0 ≤ c) (h1 : c < c1) :
    M.coef i c = alpha * A.coef i c + beta * B.coef i c := by
  obtain ⟨M', m1, -, m3⟩ := Par.parAdd_exact srt hs reorder hre alpha beta A B r0 r1 rn c0 c1 cn hA hB
  rw [h] at m1
  obtain rfl := Except.ok.inj m1
  have z : ∀ {X : ParMat R}, X.WF r0 r1 rn c0 c1 cn → X.firstAt i c = 0 := by
    intro X hX
    refine ParMat.firstAt_zero (fun e he hc => ?_)
    have := hX.map_other _ (hX.entry_cols e he)
    omega
  rw [m3, z hA, z hB]
  simp

/-- **C65 (partial).**  `ParSub(A, B)` represents `A - B` if every off-process column that `B` stores is stored by `A` too.  Missing:
columns only `B` has, for which the claim is false (`C65_sub_false`). -/
theorem C65_sub_partial [Ring R] (srt : Csr.Sorter) (hs : IsSort srt) (reorder : Csr R → Csr R) (hre : Reorders reorder)
    (A B : ParMat R) (r0 r1 rn c0 c1 cn : Int) (hA : A.WF r0 r1 rn c0 c1 cn) (hB : B.WF r0 r1 rn c0 c1 cn)
    (hb : ∀ e ∈ B.offdEntries, ∃ e' ∈ A.offdEntries, e'.2.1 = e.2.1) :
    ∃ M, Par.parSub srt reorder 1 A 1 B = .ok M ∧ M.WF r0 r1 rn c0 c1 cn ∧ ∀ i c, M.coef i c = A.coef i c - B.coef i c := by
  obtain ⟨M, m1, m2, m3⟩ := C65_add_partial srt hs reorder hre 1 (-1) A B r0 r1 rn c0 c1 cn hA hB (Or.inl rfl) (Or.inr hb)
  exact ⟨M, m1, m2, fun i c => by rw [m3, one_mul, neg_one_mul, sub_eq_add_neg]⟩

/-- One process of two: it owns row and column 0 of a 1×2 matrix and stores 5 in global column 1. -/
def Par.witness : ParMat Int := ⟨1, 1, [0, 1, 2], [0, 1, 2], ⟨1, 1, [0, 1], [0], [3]⟩, ⟨1, 1, [0, 1], [0], [5]⟩, [1]⟩
/-- As above without off-process entries. -/
def Par.witness0 : ParMat Int := ⟨1, 1, [0, 1, 2], [0, 1, 2], ⟨1, 1, [0, 1], [0], [7]⟩, ⟨1, 0, [0, 0], [], []⟩, []⟩

theorem Par.witness_wf : Par.witness.WF 0 1 2 0 1 2 ∧ Par.witness0.WF 0 1 2 0 1 2 := by
  constructor <;> constructor <;> first | decide | exact ⟨by decide, by decide, by decide, by decide⟩

/-- The sorter and the (absent) reordering used in the examples. -/
def Par.exSort : Csr.Sorter := fun lt l => l.insertionSort (fun a b => lt a b || !lt b a)

theorem Par.exSort_isSort : IsSort Par.exSort := by
  intro key l
  unfold Par.exSort
  have hrel : ∀ a b : Int, (decide (key a < key b) || !decide (key b < key a)) = decide (key a ≤ key b) := by
    intro a b
    by_cases h : key a ≤ key b
    · have h2 : ¬ key b < key a := by omega
      simp [h, h2]
    · have h1 : ¬ key a < key b := by omega
      have h2 : key b < key a := by omega
      simp [h, h1, h2]
  refine ⟨List.perm_insertionSort _ l, ?_⟩
  simp only [hrel]
  have ht : Std.Total (fun a b : Int => (decide (key a ≤ key b)) = true) := ⟨fun a b => by simpa using le_total (key a) (key b)⟩
  have htr : IsTrans Int (fun a b : Int => (decide (key a ≤ key b)) = true) := ⟨fun a b c h1 h2 => by
    simp only [decide_eq_true_eq] at *; omega⟩
  have := List.pairwise_insertionSort (r := fun a b : Int => (decide (key a ≤ key b)) = true) l
  exact this.imp (fun h => by simpa using h)

/-- **C65.**  `ParAdd(2, A, 1, B)` is not `2 A + B`: the off-process value 5 stays 5 instead of becoming 10. -/
theorem C65_false : ∃ M, Par.parAdd Par.exSort id 2 Par.witness 1 Par.witness0 = .ok M ∧
    M.coef 0 1 = 5 ∧ 2 * Par.witness.coef 0 1 + 1 * Par.witness0.coef 0 1 = 10 := by
  refine ⟨⟨1, 1, [0, 1, 2], [0, 1, 2], ⟨1, 1, [0, 1], [0], [13]⟩, ⟨1, 1, [0, 1], [0], [5]⟩, [1]⟩, ?_, ?_, ?_⟩ <;> decide +kernel

/-- **C65.**  `ParSub(A, B)` is not `A - B`: an off-process value 5 of `B` alone comes out as 5 instead of -5. -/
theorem C65_sub_false : ∃ M, Par.parSub Par.exSort id 1 Par.witness0 1 Par.witness = .ok M ∧
    M.coef 0 1 = 5 ∧ Par.witness0.coef 0 1 - Par.witness.coef 0 1 = -5 := by
  refine ⟨⟨1, 1, [0, 1, 2], [0, 1, 2], ⟨1, 1, [0, 1], [0], [4]⟩, ⟨1, 1, [0, 1], [0], [5]⟩, [1]⟩, ?_, ?_, ?_⟩ <;> decide +kernel

/-- C65: the hypotheses hold for matrices with off-process entries; the sum of one with itself. -/
example : Par.witness.WF 0 1 2 0 1 2 ∧ IsSort Par.exSort ∧ Reorders (id : Csr Int → Csr Int) ∧
    Par.parAdd Par.exSort id 1 Par.witness 1 Par.witness
      = .ok ⟨1, 1, [0, 1, 2], [0, 1, 2], ⟨1, 1, [0, 1], [0], [6]⟩, ⟨1, 1, [0, 1], [0], [10]⟩, [1]⟩ :=
  ⟨Par.witness_wf.1, Par.exSort_isSort, fun A hA => ⟨hA, rfl, rfl, fun _ => List.Perm.refl _⟩, by decide +kernel⟩

end Linalg
