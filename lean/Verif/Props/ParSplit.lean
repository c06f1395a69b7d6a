import Verif.Props.ParAdd
import Verif.Props.ParOffsets
import Verif.Spec.Laplacian

/-! # Splitting a matrix over processes -/

namespace Linalg
open Cpp

variable {α R : Type}

namespace Par

/-- The situation of one process in `ParSplit`: `L` its vertices, `σ` the new numbering of all `n` vertices, `s0 ≤ σ v < s1` its
range. -/
structure Layout (n : Nat) (L : List Int) (σ : Int → Int) (s0 s1 : Int) : Prop where
  s0_nonneg : 0 ≤ s0
  s1_eq : s1 = s0 + L.length
  s1_le : s1 ≤ (n : Int)
  range : ∀ v ∈ L, 0 ≤ v ∧ v < (n : Int)
  into : ∀ v, 0 ≤ v → v < (n : Int) → 0 ≤ σ v ∧ σ v < (n : Int)
  inj : ∀ v w, 0 ≤ v → v < (n : Int) → 0 ≤ w → w < (n : Int) → σ v = σ w → v = w
  own : ∀ (k : Nat) (h : k < L.length), σ L[k] = s0 + k
  other : ∀ w, 0 ≤ w → w < (n : Int) → w ∉ L → σ w < s0 ∨ s1 ≤ σ w

theorem Layout.mem {n : Nat} {L : List Int} {σ : Int → Int} {s0 s1 : Int} (h : Layout n L σ s0 s1) {w : Int} (h0 : 0 ≤ w)
    (h1 : w < (n : Int)) : w ∈ L ↔ s0 ≤ σ w ∧ σ w < s1 := by
  constructor
  · intro hw
    obtain ⟨k, hk, rfl⟩ := List.getElem_of_mem hw
    rw [h.own k hk, h.s1_eq]; omega
  · intro hw
    by_contra hn
    have := h.other w h0 h1 hn
    omega

theorem localIndex_ok {n : Nat} {L : List Int} {σ : Int → Int} {s0 s1 : Int} (h : Layout n L σ s0 s1) :
    ∃ ix : List Int, forUp 0 (L.length : Int) (List.replicate n (-1 : Int)) (fun i l => do
      let v ← rd L i
      let g ← rd (vecFn n σ) v
      wr l g i) = .ok ix ∧ ∀ w ∈ L, rd ix (σ w) = .ok (σ w - s0) := by
  obtain ⟨ix, h1, h2, h3⟩ := forUp_inv_nat (n := L.length) (f := fun i (l : List Int) => (do
      let v ← rd L i
      let g ← rd (vecFn n σ) v
      wr l g i : Res (List Int)))
    (fun k l => l.length = n ∧ ∀ (m : Nat) (hm : m < L.length), m < k → rd l (σ L[m]) = .ok (m : Int))
    (s := List.replicate n (-1 : Int)) ⟨by simp, by intro m _ h; omega⟩ (by
      rintro k l hk ⟨e1, e2⟩
      have hv := h.range _ (List.getElem_mem hk)
      have hg := h.into _ hv.1 hv.2
      rw [rd_nat hk, ok_bind, rd_vecFn hv.1 hv.2, ok_bind, wr_int hg.1 (by omega)]
      refine ⟨_, rfl, by simpa using e1, fun m hm hmk => ?_⟩
      have hw := h.range _ (List.getElem_mem hm)
      have hgw := h.into _ hw.1 hw.2
      rw [rd_eq_ok]
      refine ⟨hgw.1, ?_⟩
      by_cases hmk' : m = k
      · subst hmk'
        rw [List.getElem?_set_self (by omega)]
      · have o1 := h.own k hk
        have o2 := h.own m hm
        rw [List.getElem?_set_ne (by omega)]
        exact (rd_eq_ok.mp (e2 m hm (by omega))).2)
  refine ⟨ix, h1, fun w hw => ?_⟩
  obtain ⟨k, hk, rfl⟩ := List.getElem_of_mem hw
  rw [h3 k hk hk, h.own k hk]
  congr 1; omega

/-- What one entry adds to the diagonal block. -/
def diagPart (σ : Int → Int) (s0 s1 : Int) (t : Int × Int × α) : List (Int × Int × α) :=
  if s0 ≤ σ t.2.1 ∧ σ t.2.1 < s1 then
    if t.1 ≤ σ t.2.1 - s0 then
      if t.1 = σ t.2.1 - s0 then [(t.1, σ t.2.1 - s0, t.2.2)] else [(t.1, σ t.2.1 - s0, t.2.2), (σ t.2.1 - s0, t.1, t.2.2)]
    else []
  else []

/-- What one entry adds to the other block, in global numbering. -/
def offdPart (σ : Int → Int) (s0 s1 : Int) (t : Int × Int × α) : List (Int × Int × α) :=
  if s0 ≤ σ t.2.1 ∧ σ t.2.1 < s1 then [] else [(t.1, σ t.2.1, t.2.2)]

/-- The invariant of the main loop after the entries `done` (local row, old column, value). -/
structure SplitInv (n : Nat) (σ : Int → Int) (s0 s1 : Int) (done : List (Int × Int × α)) (st : SplitState α) : Prop where
  diag_unsized : st.diag.sizeSet = false
  diag_entries : st.diag.entries = done.flatMap (diagPart σ s0 s1)
  offd : OffInv n (done.flatMap (offdPart σ s0 s1)) st.offd st.colMap st.colMapIndex

/-- The body of the main loop for the entry `e` of row `lv`. -/
def splitStep (starts perm ix : List Int) (m lv : Int) (e : Int × α) (st : SplitState α) : Res (SplitState α) := do
  let g ← rd perm e.1
  let s0 ← rd starts 0
  let s1 ← rd starts 1
  if g ≥ s0 ∧ g < s1 then
    let lc ← rd ix g
    cassert (lc ≥ 0 ∧ lc < m)
    if lc ≥ lv then
      let D ← st.diag.addSym lv lc e.2
      .ok { st with diag := D }
    else .ok st
  else
    let lc ← rd st.colMapIndex g
    if lc ≥ 0 then
      let C ← st.offd.add lv lc e.2
      .ok { st with offd := C }
    else
      let index ← wr st.colMapIndex g (st.colMap.length : Int)
      let C ← st.offd.add lv (st.colMap.length : Int) e.2
      .ok ⟨st.diag, C, st.colMap ++ [g], index⟩

theorem splitStep_ok {n : Nat} {L : List Int} {σ : Int → Int} {s0 s1 : Int} (h : Layout n L σ s0 s1) (sn : Int) (ix : List Int)
    (hix : ∀ w ∈ L, rd ix (σ w) = .ok (σ w - s0)) (lv : Int) (hlv : 0 ≤ lv) (e : Int × α) (he : 0 ≤ e.1 ∧ e.1 < (n : Int))
    (done : List (Int × Int × α)) (st : SplitState α) (hst : SplitInv n σ s0 s1 done st) :
    ∃ st', splitStep [s0, s1, sn] (vecFn n σ) ix (L.length : Int) lv e st = .ok st' ∧ SplitInv n σ s0 s1 (done ++ [(lv, e.1, e.2)]) st' := by
  have q0 : rd [s0, s1, sn] 0 = .ok s0 := rfl
  have q1 : rd [s0, s1, sn] 1 = .ok s1 := rfl
  have hg := h.into e.1 he.1 he.2
  unfold splitStep
  rw [rd_vecFn he.1 he.2, q0, q1]
  simp only [ok_bind]
  have hdone : ∀ f : Int × Int × α → List (Int × Int × α), (done ++ [(lv, e.1, e.2)]).flatMap f = done.flatMap f ++ f (lv, e.1, e.2) := by
    intro f; simp
  by_cases hin : s0 ≤ σ e.1 ∧ σ e.1 < s1
  · have hmem := (h.mem he.1 he.2).mpr hin
    have hs1 := h.s1_eq
    rw [if_pos hin, hix _ hmem, ok_bind, cassert_true (by omega), ok_bind]
    have hoff : (done ++ [(lv, e.1, e.2)]).flatMap (offdPart σ s0 s1) = done.flatMap (offdPart σ s0 s1) := by
      rw [hdone]; simp [offdPart, hin]
    by_cases hge : σ e.1 - s0 ≥ lv
    · rw [if_pos hge]
      unfold Coo.addSym
      rw [Coo.add_ok hlv (by omega) (by simp [hst.diag_unsized]), ok_bind]
      by_cases heq : lv = σ e.1 - s0
      · rw [if_neg (by simpa using heq), ok_bind]
        refine ⟨_, rfl, hst.diag_unsized, ?_, by rw [hoff]; exact hst.offd⟩
        rw [hdone]
        simp only
        rw [hst.diag_entries]
        have : diagPart σ s0 s1 (lv, e.1, e.2) = [(lv, σ e.1 - s0, e.2)] := by
          unfold diagPart; simp only; rw [if_pos hin, if_pos (by omega), if_pos heq]
        rw [this]
      · rw [if_pos heq, Coo.add_ok (by omega) hlv (by simp [hst.diag_unsized]), ok_bind]
        refine ⟨_, rfl, hst.diag_unsized, ?_, by rw [hoff]; exact hst.offd⟩
        rw [hdone]
        simp only
        rw [hst.diag_entries]
        have : diagPart σ s0 s1 (lv, e.1, e.2) = [(lv, σ e.1 - s0, e.2), (σ e.1 - s0, lv, e.2)] := by
          unfold diagPart; simp only; rw [if_pos hin, if_pos (by omega), if_neg heq]
        rw [this, List.append_assoc]
        rfl
    · rw [if_neg hge]
      refine ⟨_, rfl, hst.diag_unsized, ?_, by rw [hoff]; exact hst.offd⟩
      rw [hdone, hst.diag_entries]
      have : diagPart σ s0 s1 (lv, e.1, e.2) = [] := by
        unfold diagPart; simp only; rw [if_pos hin, if_neg (by omega)]
      rw [this, List.append_nil]
  · rw [if_neg hin]
    have hd : (done ++ [(lv, e.1, e.2)]).flatMap (diagPart σ s0 s1) = done.flatMap (diagPart σ s0 s1) := by
      rw [hdone]; simp [diagPart, hin]
    have hoff : (done ++ [(lv, e.1, e.2)]).flatMap (offdPart σ s0 s1) = done.flatMap (offdPart σ s0 s1) ++ [(lv, σ e.1, e.2)] := by
      rw [hdone]; simp [offdPart, hin]
    by_cases hm : σ e.1 ∈ st.colMap
    · obtain ⟨m, m0, k1, k2, k3⟩ := hst.offd.old hm hlv e.2
      rw [k1, ok_bind, if_pos (by omega), k2, ok_bind]
      exact ⟨_, rfl, hst.diag_unsized, by rw [hd]; exact hst.diag_entries, by rw [hoff]; exact k3⟩
    · obtain ⟨k1, k2, mk, k3, k4⟩ := hst.offd.new hm hg.1 hg.2 hlv e.2
      rw [k1, ok_bind, if_neg (by omega), k3, ok_bind, k2, ok_bind]
      exact ⟨_, rfl, hst.diag_unsized, by rw [hd]; exact hst.diag_entries, by rw [hoff]; exact k4⟩

/-- All entries of the rows in `L`, by local row. -/
def ownEntries (A : Csr α) (L : List Int) : List (Int × Int × α) :=
  (iota L.length).flatMap (fun k => (A.row (vecAt L k)).map (fun e => (k, e.1, e.2)))

theorem splitLoop_ok {n : Nat} {L : List Int} {σ : Int → Int} {s0 s1 : Int} (h : Layout n L σ s0 s1) (sn : Int) (ix : List Int)
    (hix : ∀ w ∈ L, rd ix (σ w) = .ok (σ w - s0)) (A : Csr α) (hA : A.WF) (hr : A.rows = n) (hc : A.cols = n) :
    ∃ st, forUp 0 (L.length : Int) (⟨Coo.new, Coo.new, [], List.replicate n (-1)⟩ : SplitState α) (fun lv st => do
      let vertex ← rd L lv
      A.forRow vertex st (splitEntry A [s0, s1, sn] (vecFn n σ) ix (L.length : Int) lv)) = .ok st ∧
      SplitInv n σ s0 s1 (ownEntries A L) st := by
  obtain ⟨nc, rs, _, hrs, rfl⟩ := hA.exists_rows
  have hnc : nc = (n : Int) := hc
  have hlen : (rs.length : Int) = n := hr
  subst hnc
  obtain ⟨st, h1, h2⟩ := forUp_inv_nat (n := L.length) (f := fun lv (st : SplitState α) => (do
      let vertex ← rd L lv
      (Csr.ofRows (n : Int) rs).forRow vertex st
        (splitEntry (Csr.ofRows (n : Int) rs) [s0, s1, sn] (vecFn n σ) ix (L.length : Int) lv) : Res (SplitState α)))
    (fun k st => SplitInv n σ s0 s1 ((iota k).flatMap (fun k => ((Csr.ofRows (n : Int) rs).row (vecAt L k)).map (fun e => (k, e.1, e.2)))) st)
    (s := ⟨Coo.new, Coo.new, [], List.replicate n (-1)⟩) ⟨rfl, rfl, OffInv.init n⟩ (by
      intro k st hk hst
      have hv := h.range _ (List.getElem_mem hk)
      obtain ⟨v, hve⟩ := Int.eq_ofNat_of_zero_le hv.1
      have hvl : v < rs.length := by omega
      rw [rd_nat hk, ok_bind, hve]
      rw [Csr.forRow_ofRows (n : Int) rs v hvl st _ (fun e st => splitStep [s0, s1, sn] (vecFn n σ) ix (L.length : Int) (k : Int) e st) (by
        intro m hm s
        unfold splitEntry splitStep
        rw [rd_indices_ofRows _ rs v m hvl hm, rd_data_ofRows _ rs v m hvl hm]; rfl)]
      obtain ⟨st', h3, h4⟩ := foldlM_inv (l := rs[v])
        (f := fun st e => splitStep [s0, s1, sn] (vecFn n σ) ix (L.length : Int) (k : Int) e st)
        (fun pre st => SplitInv n σ s0 s1 (((iota k).flatMap (fun k => ((Csr.ofRows (n : Int) rs).row (vecAt L k)).map
          (fun e => (k, e.1, e.2)))) ++ pre.map (fun e => ((k : Int), e.1, e.2))) st) (s := st) (by simpa using hst) (by
          intro pre e post s hl hs
          have he : e ∈ rs[v] := by rw [hl]; simp
          obtain ⟨s', k1, k2⟩ := splitStep_ok h sn ix hix (k : Int) (by omega) e (hrs _ (List.getElem_mem hvl) e he) _ s hs
          refine ⟨s', k1, ?_⟩
          rw [List.map_append, List.map_singleton, ← List.append_assoc]
          exact k2)
      refine ⟨st', h3, ?_⟩
      rw [iota_succ, List.flatMap_append, List.flatMap_singleton, vecAt_nat L k hk, hve, Csr.row_ofRows (n : Int) rs v hvl]
      exact h4)
  exact ⟨st, h1, h2⟩

theorem tripleCoef_ownEntries [AddCommMonoid R] (A : Csr R) (L : List Int) (k : Nat) (hk : k < L.length) (w : Int) :
    tripleCoef (ownEntries A L) (k : Int) w = A.coef L[k] w := by
  unfold ownEntries
  rw [tripleCoef_flatMap, sum_iota, Finset.sum_eq_single (k : Int)]
  · rw [vecAt_nat L k hk, tripleCoef_map, Csr.coef_eq, rowCoef_eq_sum_ite]
    simp
  · intro b _ hb
    refine tripleCoef_eq_zero ?_
    intro e he hx
    obtain ⟨x, _, rfl⟩ := List.mem_map.mp he
    exact hb hx.1
  · intro hn
    exfalso; apply hn; simp; omega

theorem mem_ownEntries {A : Csr α} (hA : A.WF) {L : List Int} {t : Int × Int × α} (h : t ∈ ownEntries A L) :
    (0 ≤ t.1 ∧ t.1 < (L.length : Int)) ∧ 0 ≤ t.2.1 ∧ t.2.1 < A.cols := by
  unfold ownEntries at h
  rw [List.mem_flatMap] at h
  obtain ⟨k, hk, h⟩ := h
  obtain ⟨e, he, rfl⟩ := List.mem_map.mp h
  exact ⟨mem_iota.mp hk, (Csr.mem_row_ok hA he).2.2⟩

/-- `ToSparse` stores the positions that were added. -/
theorem stored_toSparse [AddMonoid R] (C : Coo R) (hC : C.WF) (A : Csr R) (h : C.toSparse = .ok A) (i j : Int) :
    A.Stored i j ↔ ∃ e ∈ C.entries, e.1 = i ∧ e.2.1 = j := by
  have hA := Coo.toSparse_eq C hC
  obtain ⟨A', h1, h2, h3, -, -, -⟩ := C17_toSparse C hC
  rw [h] at h1
  obtain rfl := Except.ok.inj h1
  rw [h] at hA
  have hin := hC.in_size
  have hs := hC.size_nonneg
  obtain rfl := Except.ok.inj hA
  unfold Csr.Stored
  by_cases hi : 0 ≤ i ∧ i < C.findSize.1
  · obtain ⟨t, rfl⟩ := Int.eq_ofNat_of_zero_le hi.1
    have ht : t < (cooRows C.findSize.1.toNat C.entries).length := by simp [cooRows]; omega
    rw [Csr.row_ofRows _ _ t ht]
    simp only [cooRows, List.getElem_map, List.getElem_range, List.map_map]
    rw [show ((Prod.fst : Int × R → Int) ∘ fun c => (c, tripleCoef C.entries (t : Int) c)) = id from rfl, List.map_id]
    exact mem_pat _ _ _
  · constructor
    · intro h
      have hr : (Csr.ofRows C.findSize.2 (cooRows C.findSize.1.toNat C.entries)).row i = [] := by
        rcases lt_or_ge i 0 with h0 | h0
        · exact Csr.row_neg _ h0
        · exact Csr.row_ge _ h2.indptr_len (by rw [h3]; omega)
      rw [hr] at h
      simp at h
    · rintro ⟨e, he, rfl, rfl⟩
      have := (hin e he).1
      exact absurd this hi

/-- The constructor keeps the diagonal block, reordered. -/
theorem new_diag (reorder : Csr α → Csr α) (r0 r1 rn c0 c1 cn : Int) (hr : 0 ≤ r0 ∧ r0 ≤ r1 ∧ r1 ≤ rn) (hc : 0 ≤ c0 ∧ c0 ≤ c1 ∧ c1 ≤ cn)
    (diag offd : Csr α) (cm : List Int) (M : ParMat α) (h : ParMat.new reorder [r0, r1, rn] [c0, c1, cn] diag offd cm = .ok M) :
    M.diag = reorder diag := by
  rw [ParMat.new_eq reorder r0 r1 rn c0 c1 cn diag offd cm hr hc] at h
  simp only [bind_eq_ok, cassert_ok_iff] at h
  obtain ⟨o, _, _, _, _, _, _, _, _, _, _, _, h⟩ := h
  obtain rfl := Except.ok.inj h
  rfl

theorem splitLocal_ok [AddCommMonoid R] (srt : Csr.Sorter) (hs : IsSort srt) (reorder : Csr R → Csr R) (hre : Reorders reorder)
    {n : Nat} {L : List Int} {σ : Int → Int} {s0 s1 : Int} (h : Layout n L σ s0 s1) (A : Csr R) (hA : A.WF) (hr : A.rows = n)
    (hc : A.cols = n) :
    ∃ M, splitLocal srt reorder A L [s0, s1, (n : Int)] (vecFn n σ) = .ok M ∧ M.WF s0 s1 n s0 s1 n ∧
      (∀ (k l : Nat) (hk : k < L.length) (hl : l < L.length),
        M.coef k (s0 + l) = if k ≤ l then A.coef L[k] L[l] else A.coef L[l] L[k]) ∧
      (∀ (k : Nat) (hk : k < L.length) (w : Int), 0 ≤ w → w < (n : Int) → w ∉ L → M.coef k (σ w) = A.coef L[k] w) ∧
      M.diag.NoDup ∧ (∀ (k l : Nat) (hk : k < L.length) (hl : l < L.length),
        M.diag.Stored k l ↔ if k ≤ l then A.Stored L[k] L[l] else A.Stored L[l] L[k]) := by
  have hs0 := h.s0_nonneg
  have hs1 := h.s1_eq
  have hsn := h.s1_le
  obtain ⟨ix, x1, x2⟩ := localIndex_ok h
  obtain ⟨st, y1, y2⟩ := splitLoop_ok h (n : Int) ix x2 A hA hr hc
  have i2 := y2.offd
  unfold splitLocal
  rw [hr, mkVec_nat]
  simp only [ok_bind]
  rw [x1, ok_bind]
  rw [y1, ok_bind]
  unfold Coo.setSize
  rw [cassert_true (by omega), ok_bind, cassert_true (by omega), ok_bind, ok_bind]
  simp only [ok_bind]
  have inv : ∀ (w : Int) (l : Nat) (hl : l < L.length), 0 ≤ w → w < (n : Int) → (σ w - s0 = l ↔ w = L[l]) := by
    intro w l hl w0 w1
    have hb := h.range _ (List.getElem_mem hl)
    have ho := h.own l hl
    constructor
    · intro e
      exact h.inj w L[l] w0 w1 hb.1 hb.2 (by omega)
    · rintro rfl; omega
  -- the off-process entries
  have hAll : ∀ e ∈ glob st.colMap st.offd.entries, e.1 < (L.length : Int) ∧ (0 ≤ e.2.1 ∧ e.2.1 < (n : Int)) ∧ (e.2.1 < s0 ∨ s1 ≤ e.2.1) := by
    intro e he
    rw [i2.glob_eq, List.mem_flatMap] at he
    obtain ⟨t, ht, he⟩ := he
    have hb := mem_ownEntries hA ht
    have hin := h.into t.2.1 hb.2.1 (by omega)
    unfold offdPart at he
    split at he
    · cases he
    · rw [List.mem_singleton] at he
      subst he
      simp only
      omega
  have cmAll : ∀ g ∈ st.colMap, (0 ≤ g ∧ g < (n : Int)) ∧ (g < s0 ∨ s1 ≤ g) := by
    intro g hg
    rw [i2.colMap_eq, mem_firstOcc] at hg
    obtain ⟨e, he, rfl⟩ := List.mem_map.mp hg
    rw [← i2.glob_eq] at he
    exact (hAll e he).2
  have hW : ({ st.offd with sizeSet := true, rows := (L.length : Int), cols := (st.colMap.length : Int) } : Coo R).WF := by
    refine ⟨by simp only; omega, by simp only; omega, fun e he => ⟨i2.entry_rows e he, (i2.entry_cols e he).1⟩, fun _ e he => ⟨?_, ?_⟩⟩
    · have := (hAll (e.1, vecAt st.colMap e.2.1, e.2.2) (List.mem_map.mpr ⟨e, he, rfl⟩)).1
      exact this
    · exact (i2.entry_cols e he).2
  obtain ⟨cm', C', u1, u2, u3, u4, u5, u6, u7, u8⟩ := Par.sortColumnMap_ok srt hs st.colMap _ hW (by
    rw [Coo.findSize_sized rfl])
  rw [u1, ok_bind]
  simp only
  -- ToSparse
  have hWd : ({ st.diag with sizeSet := true, rows := (L.length : Int), cols := (L.length : Int) } : Coo R).WF := by
    have both : ∀ e ∈ st.diag.entries, (0 ≤ e.1 ∧ 0 ≤ e.2.1) ∧ (e.1 < (L.length : Int) ∧ e.2.1 < (L.length : Int)) := by
      intro e he
      rw [y2.diag_entries, List.mem_flatMap] at he
      obtain ⟨t, ht, he⟩ := he
      have hb := mem_ownEntries hA ht
      unfold diagPart at he
      split at he
      · split at he
        · split at he
          · rw [List.mem_singleton] at he
            subst he; simp only; omega
          · rw [List.mem_cons, List.mem_singleton] at he
            rcases he with rfl | rfl <;> simp only <;> omega
        · cases he
      · cases he
    exact ⟨by simp only; omega, by simp only; omega, fun e he => (both e he).1, fun _ e he => (both e he).2⟩
  obtain ⟨D, d1, d2, d3, d4, d5, d6⟩ := C17_toSparse _ hWd
  simp only [d1, ok_bind]
  have hlen : cm'.length = st.colMap.length := u2.length_eq
  have hWo : C'.WF := by
    refine ⟨by rw [u4]; simp only; omega, by rw [u5]; simp only; omega, ?_, ?_⟩
    · intro e he
      refine ⟨?_, (u7 e he).1⟩
      have : (e.1, vecAt cm' e.2.1, e.2.2) ∈ glob cm' C'.entries := List.mem_map.mpr ⟨e, he, rfl⟩
      rw [u8] at this
      obtain ⟨x, hx, hxe⟩ := List.mem_map.mp this
      have := i2.entry_rows x hx
      rw [show e.1 = x.1 from (congrArg Prod.fst hxe).symm]
      exact this
    · intro _ e he
      refine ⟨?_, by rw [u5]; exact (u7 e he).2⟩
      have : (e.1, vecAt cm' e.2.1, e.2.2) ∈ glob cm' C'.entries := List.mem_map.mpr ⟨e, he, rfl⟩
      rw [u8] at this
      rw [u4]
      exact (hAll _ this).1
  obtain ⟨O, o1, o2, o3, o4, _, o6⟩ := C17_toSparse _ hWo
  simp only [o1, ok_bind]
  have hsz : C'.findSize = ((L.length : Int), (st.colMap.length : Int)) := by
    rw [Coo.findSize_sized (by rw [u6]), u4, u5]
  rw [Coo.findSize_sized rfl] at d3 d4
  rw [hsz] at o3 o4
  simp only at d3 d4 o3 o4
  have nd : cm'.Nodup := by
    rw [u2.nodup_iff, i2.colMap_eq]; exact nodup_firstOcc _
  have hsorted : cm'.Pairwise (· < ·) := by
    have := List.Pairwise.and u3 nd
    exact this.imp (fun h => lt_of_le_of_ne h.1 h.2)
  have hst : IsStarts [s0, s1, (n : Int)] s0 s1 (n : Int) := ⟨rfl, hs0, by omega, hsn⟩
  obtain ⟨M, hM⟩ := (C74_accepts reorder [s0, s1, (n : Int)] [s0, s1, (n : Int)] D O cm').mpr
    ⟨s0, s1, n, s0, s1, n, hst, hst, by omega, by omega, Or.inr ⟨by omega, by rw [o4, hlen]⟩,
      hsorted, fun c hc => (cmAll c (u2.mem_iff.mp hc)).1, fun c hc => (cmAll c (u2.mem_iff.mp hc)).2⟩
  obtain ⟨r0', r1', rn', c0', c1', cn', hwf, m1, m2, m3, m4⟩ := C74_result reorder hre _ _ D O d2 o2 cm' M hM
  have er : [r0', r1', rn'] = [s0, s1, (n : Int)] := by rw [← hwf.row_starts.eq, m1]
  have ec : [c0', c1', cn'] = [s0, s1, (n : Int)] := by rw [← hwf.col_starts.eq, m2]
  simp only [List.cons.injEq, and_true] at er ec
  obtain ⟨rfl, rfl, rfl⟩ := er
  obtain ⟨rfl, rfl, rfl⟩ := ec
  have hoff : ∀ i c, (∑ k ∈ Finset.Ico (0 : Int) cm'.length, if vecAt cm' k = c then O.coef i k else 0)
      = tripleCoef ((ownEntries A L).flatMap (offdPart σ c0' c1')) i c := by
    intro i c
    rw [← i2.glob_eq, ← u8, tripleCoef_glob cm' (cm'.length : Int) C'.entries (by rw [hlen]; exact u7)]
    apply Finset.sum_congr rfl
    intro k _
    rw [o6]; rfl
  have hdg : ∀ i j, D.coef i j = tripleCoef ((ownEntries A L).flatMap (diagPart σ c0' c1')) i j := by
    intro i j
    rw [d6, ← y2.diag_entries]; rfl
  -- sums over the entries
  have hsum : ∀ (i w : Int), tripleCoef (ownEntries A L) i w
      = ((ownEntries A L).map (fun t => if t.1 = i ∧ t.2.1 = w then t.2.2 else 0)).sum := by
    intro i w
    have e := tripleCoef_map (ownEntries A L) (fun t => t) i w
    rw [List.map_id'] at e
    exact e
  have hMd : M.diag = reorder D := new_diag reorder _ _ _ _ _ _ (by omega) (by omega) D O cm' M hM
  have hperm := (hre D d2).2.2.2
  refine ⟨M, hM, hwf, ?_, ?_, ?_, ?_⟩
  rotate_left 2
  · intro i
    rw [hMd, ((hperm i).map Prod.fst).nodup_iff]
    exact d5 i
  · intro k l hk hl
    have hst : M.diag.Stored k l ↔ D.Stored k l := by
      unfold Csr.Stored
      rw [hMd, ((hperm k).map Prod.fst).mem_iff]
    rw [hst, stored_toSparse _ hWd D d1]
    simp only
    rw [y2.diag_entries]
    have own : ∀ (k : Nat) (hk : k < L.length) (w : Int), A.Stored L[k] w ↔ ∃ t ∈ ownEntries A L, t.1 = (k : Int) ∧ t.2.1 = w := by
      intro k hk w
      unfold Csr.Stored ownEntries
      constructor
      · intro hw
        obtain ⟨e, he, rfl⟩ := List.mem_map.mp hw
        refine ⟨((k : Int), e.1, e.2), List.mem_flatMap.mpr ⟨(k : Int), mem_iota.mpr ⟨by omega, by omega⟩, ?_⟩, rfl, rfl⟩
        rw [vecAt_nat L k hk]
        exact List.mem_map.mpr ⟨e, he, rfl⟩
      · rintro ⟨t, ht, h1, rfl⟩
        obtain ⟨k', _, ht⟩ := List.mem_flatMap.mp ht
        obtain ⟨e, he, rfl⟩ := List.mem_map.mp ht
        simp only at h1
        subst h1
        rw [vecAt_nat L k hk] at he
        exact List.mem_map.mpr ⟨e, he, rfl⟩
    have main : ∀ (a b : Nat) (ha : a < L.length) (hb : b < L.length), a ≤ b → A.Stored L[a] L[b] →
        (∃ e ∈ (ownEntries A L).flatMap (diagPart σ c0' c1'), e.1 = (a : Int) ∧ e.2.1 = (b : Int)) ∧
        (∃ e ∈ (ownEntries A L).flatMap (diagPart σ c0' c1'), e.1 = (b : Int) ∧ e.2.1 = (a : Int)) := by
      intro a b ha hb hab hS
      obtain ⟨t, ht, t1, t2⟩ := (own a ha _).mp hS
      have hbd := mem_ownEntries hA ht
      have hw := (inv t.2.1 b hb hbd.2.1 (by omega)).mpr t2
      by_cases heq : a = b
      · subst heq
        have : (t.1, σ t.2.1 - c0', t.2.2) ∈ (ownEntries A L).flatMap (diagPart σ c0' c1') := by
          refine List.mem_flatMap.mpr ⟨t, ht, ?_⟩
          unfold diagPart
          rw [if_pos (by omega), if_pos (by omega), if_pos (by omega)]
          simp
        exact ⟨⟨_, this, t1, hw⟩, ⟨_, this, t1, hw⟩⟩
      · have h2 : diagPart σ c0' c1' t = [(t.1, σ t.2.1 - c0', t.2.2), (σ t.2.1 - c0', t.1, t.2.2)] := by
          unfold diagPart
          rw [if_pos (by omega), if_pos (by omega), if_neg (by omega)]
        exact ⟨⟨(t.1, σ t.2.1 - c0', t.2.2), List.mem_flatMap.mpr ⟨t, ht, by rw [h2]; exact List.mem_cons_self⟩, t1, hw⟩,
          ⟨(σ t.2.1 - c0', t.1, t.2.2), List.mem_flatMap.mpr ⟨t, ht, by rw [h2]; exact List.mem_cons_of_mem _ List.mem_cons_self⟩, hw, t1⟩⟩
    constructor
    · rintro ⟨e, he, e1, e2⟩
      obtain ⟨t, ht, he⟩ := List.mem_flatMap.mp he
      have hbd := mem_ownEntries hA ht
      unfold diagPart at he
      split at he
      · split at he
        · split at he
          · rw [List.mem_singleton] at he
            subst he
            simp only at e1 e2
            rw [if_pos (by omega)]
            exact (own k hk _).mpr ⟨t, ht, e1, (inv t.2.1 l hl hbd.2.1 (by omega)).mp e2⟩
          · rw [List.mem_cons, List.mem_singleton] at he
            rcases he with rfl | rfl
            · simp only at e1 e2
              rw [if_pos (by omega)]
              exact (own k hk _).mpr ⟨t, ht, e1, (inv t.2.1 l hl hbd.2.1 (by omega)).mp e2⟩
            · simp only at e1 e2
              rw [if_neg (by omega)]
              exact (own l hl _).mpr ⟨t, ht, e2, (inv t.2.1 k hk hbd.2.1 (by omega)).mp e1⟩
        · cases he
      · cases he
    · intro hS
      by_cases hkl : k ≤ l
      · rw [if_pos hkl] at hS
        exact (main k l hk hl hkl hS).1
      · rw [if_neg hkl] at hS
        exact (main l k hl hk (by omega) hS).2
  · intro k l hk hl
    rw [m4, if_pos (by omega), hoff, hdg]
    have z : tripleCoef ((ownEntries A L).flatMap (offdPart σ c0' c1')) (k : Int) (c0' + l) = 0 := by
      refine tripleCoef_eq_zero ?_
      intro e he hx
      rw [List.mem_flatMap] at he
      obtain ⟨t, _, he⟩ := he
      unfold offdPart at he
      split at he
      · cases he
      · rw [List.mem_singleton] at he
        subst he
        simp only at hx
        omega
    rw [z, add_zero, show c0' + (l : Int) - c0' = l by ring, tripleCoef_flatMap]
    by_cases hkl : k ≤ l
    · rw [if_pos hkl, ← tripleCoef_ownEntries A L k hk, hsum]
      congr 1
      apply List.map_congr_left
      intro t ht
      have hb := mem_ownEntries hA ht
      have hiv := inv t.2.1 l hl hb.2.1 (by omega)
      by_cases hx : t.1 = (k : Int) ∧ t.2.1 = L[l]
      · rw [if_pos hx]
        have hw := hiv.mpr hx.2
        unfold diagPart
        rw [if_pos (by omega), if_pos (by omega)]
        by_cases heq : t.1 = σ t.2.1 - c0'
        · rw [if_pos heq, tripleCoef_cons, if_pos ⟨hx.1, hw⟩, tripleCoef_nil, add_zero]
        · rw [if_neg heq, tripleCoef_cons, if_pos ⟨hx.1, hw⟩, tripleCoef_cons, if_neg (by simp only; omega), tripleCoef_nil,
            add_zero, add_zero]
      · rw [if_neg hx]
        refine tripleCoef_eq_zero ?_
        intro e he hxe
        unfold diagPart at he
        split at he
        · split at he
          · split at he
            · rw [List.mem_singleton] at he
              subst he
              exact hx ⟨hxe.1, hiv.mp hxe.2⟩
            · rw [List.mem_cons, List.mem_singleton] at he
              rcases he with rfl | rfl
              · exact hx ⟨hxe.1, hiv.mp hxe.2⟩
              · simp only at hxe; omega
          · cases he
        · cases he
    · rw [if_neg hkl, ← tripleCoef_ownEntries A L l hl, hsum]
      congr 1
      apply List.map_congr_left
      intro t ht
      have hb := mem_ownEntries hA ht
      have hiv := inv t.2.1 k hk hb.2.1 (by omega)
      by_cases hx : t.1 = (l : Int) ∧ t.2.1 = L[k]
      · rw [if_pos hx]
        have hw := hiv.mpr hx.2
        unfold diagPart
        rw [if_pos (by omega), if_pos (by omega), if_neg (by omega), tripleCoef_cons, if_neg (by simp only; omega), tripleCoef_cons,
          if_pos ⟨hw, hx.1⟩, tripleCoef_nil, add_zero, zero_add]
      · rw [if_neg hx]
        refine tripleCoef_eq_zero ?_
        intro e he hxe
        unfold diagPart at he
        split at he
        · split at he
          · split at he
            · rw [List.mem_singleton] at he
              subst he
              simp only at hxe; omega
            · rw [List.mem_cons, List.mem_singleton] at he
              rcases he with rfl | rfl
              · simp only at hxe; omega
              · exact hx ⟨hxe.2, hiv.mp hxe.1⟩
          · cases he
        · cases he
  · intro k hk w w0 w1 hw
    have ho := h.other w w0 w1 hw
    rw [m4, if_neg (by omega), zero_add, hoff, tripleCoef_flatMap, ← tripleCoef_ownEntries A L k hk, hsum]
    congr 1
    apply List.map_congr_left
    intro t ht
    have hb := mem_ownEntries hA ht
    unfold offdPart
    by_cases hin : c0' ≤ σ t.2.1 ∧ σ t.2.1 < c1'
    · rw [if_pos hin, tripleCoef_nil, if_neg]
      rintro ⟨_, rfl⟩
      omega
    · rw [if_neg hin, tripleCoef_cons, tripleCoef_nil, add_zero]
      have : σ t.2.1 = σ w ↔ t.2.1 = w := ⟨fun e => h.inj _ _ hb.2.1 (by omega) w0 w1 e, fun e => by rw [e]⟩
      simp only [this]

/-! ## The numbering -/

/-- The vertices of process `p` below `m`, ascending. -/
def vertsTo (part : List Int) (p : Int) (m : Nat) : List Int := (iota m).filter (fun v => vecAt part v = p)

theorem vertsTo_succ (part : List Int) (p : Int) (m : Nat) :
    vertsTo part p (m + 1) = if vecAt part m = p then vertsTo part p m ++ [(m : Int)] else vertsTo part p m := by
  unfold vertsTo
  rw [iota_succ, List.filter_append]
  by_cases h : vecAt part m = p <;> simp [h]

theorem localPart_eq (me : Int) (part : List Int) : localPart me part = .ok (vertsTo part me part.length) := by
  unfold localPart
  obtain ⟨l, h1, h2⟩ := forUp_inv_nat (n := part.length) (f := fun i (l : List Int) => (do
      let p ← rd part i
      if p = me then .ok (l ++ [i]) else .ok l : Res (List Int)))
    (fun k l => l = vertsTo part me k) (s := []) rfl (by
      rintro k l hk rfl
      rw [rd_vecAt part (by omega) (by omega), ok_bind, vertsTo_succ]
      by_cases h : vecAt part k = me
      · exact ⟨_, if_pos h, by rw [if_pos h]⟩
      · exact ⟨_, if_neg h, by rw [if_neg h]⟩)
  rw [h1, h2]

theorem take_count_succ (part : List Int) (p : Int) (m : Nat) (hm : m < part.length) :
    (part.take (m + 1)).count p = (part.take m).count p + if vecAt part m = p then 1 else 0 := by
  rw [List.take_succ_eq_append_getElem hm, List.count_append, vecAt_nat part m hm, List.count_singleton]
  simp

theorem length_vertsTo (part : List Int) (p : Int) (m : Nat) (hm : m ≤ part.length) :
    (vertsTo part p m).length = (part.take m).count p := by
  induction m with
  | zero => simp [vertsTo, iota]
  | succ m ih =>
    rw [vertsTo_succ, take_count_succ part p m (by omega), ← ih (by omega)]
    by_cases h : vecAt part m = p <;> simp [h]

theorem mem_vertsTo {part : List Int} {p : Int} {m : Nat} {v : Int} :
    v ∈ vertsTo part p m ↔ (0 ≤ v ∧ v < (m : Int)) ∧ vecAt part v = p := by
  unfold vertsTo
  rw [List.mem_filter, mem_iota]
  simp

theorem count_vertsTo (part : List Int) (p : Int) (m : Nat) (hm : m ≤ part.length) (k : Nat) (hk : k < (vertsTo part p m).length) :
    (part.take ((vertsTo part p m)[k]).toNat).count p = k := by
  induction m with
  | zero => simp [vertsTo, iota] at hk
  | succ m ih =>
    have hl := length_vertsTo part p m (by omega)
    by_cases h : vecAt part m = p
    · have e : vertsTo part p (m + 1) = vertsTo part p m ++ [(m : Int)] := by rw [vertsTo_succ, if_pos h]
      simp only [e] at hk ⊢
      by_cases hk' : k < (vertsTo part p m).length
      · rw [List.getElem_append_left hk']
        exact ih (by omega) hk'
      · have hke : k = (vertsTo part p m).length := by simp at hk; omega
        subst hke
        rw [List.getElem_append_right (by omega)]
        simp only [Nat.sub_self, List.getElem_cons_zero, Int.toNat_natCast]
        exact hl.symm
    · have e : vertsTo part p (m + 1) = vertsTo part p m := by rw [vertsTo_succ, if_neg h]
      simp only [e] at hk ⊢
      exact ih (by omega) hk

theorem getElem_vertsTo (part : List Int) (p : Int) (v : Int) (h0 : 0 ≤ v) (h1 : v < (part.length : Int)) (hp : vecAt part v = p) :
    ∃ hk : (part.take v.toNat).count p < (vertsTo part p part.length).length,
      (vertsTo part p part.length)[(part.take v.toNat).count p] = v := by
  obtain ⟨k, hk, e⟩ := List.getElem_of_mem (mem_vertsTo.mpr ⟨⟨h0, h1⟩, hp⟩ : v ∈ vertsTo part p part.length)
  have := count_vertsTo part p part.length le_rfl k hk
  rw [e] at this
  simp only [this]
  exact ⟨hk, e⟩

theorem localPerm_eq (part : List Int) (p s a b : Int) :
    localPerm (part.length : Int) (vertsTo part p part.length) [s, a, b]
      = .ok (vecFn part.length (fun v => if vecAt part v = p then ((part.take v.toNat).count p : Int) + s else 0)) := by
  unfold localPerm
  rw [mkVec_nat, ok_bind]
  obtain ⟨l, h1, h2⟩ := forUp_inv_nat (n := (vertsTo part p part.length).length) (f := fun i (tmp : List Int) => (do
      let v ← rd (vertsTo part p part.length) i
      let s ← rd [s, a, b] 0
      wr tmp v (i + s) : Res (List Int)))
    (fun k l => l = vecFn part.length (fun v => if vecAt part v = p ∧ (part.take v.toNat).count p < k
      then ((part.take v.toNat).count p : Int) + s else 0)) (s := List.replicate part.length 0) (by
        rw [replicate_vecFn]; apply vecFn_congr; intro i _ _; simp) (by
      rintro k l hk rfl
      have hm := mem_vertsTo.mp (List.getElem_mem hk)
      have hc := count_vertsTo part p part.length le_rfl k hk
      rw [rd_nat hk, ok_bind, show rd [s, a, b] 0 = .ok s from rfl, ok_bind, wr_vecFn _ hm.1.1 hm.1.2]
      refine ⟨_, rfl, ?_⟩
      apply vecFn_congr
      intro i i0 i1
      by_cases hi : i = (vertsTo part p part.length)[k]
      · rw [if_pos hi, hi, hc, if_pos ⟨hm.2, by omega⟩]
      · rw [if_neg hi]
        by_cases hp : vecAt part i = p
        · have hne : (part.take i.toNat).count p ≠ k := by
            rintro rfl
            obtain ⟨_, e⟩ := getElem_vertsTo part p i i0 i1 hp
            exact hi e.symm
          have hiff : ((part.take i.toNat).count p < k) ↔ ((part.take i.toNat).count p < k + 1) := by omega
          simp only [hiff]
        · simp [hp])
  rw [h1, h2]
  congr 1
  apply vecFn_congr
  intro i i0 i1
  by_cases hp : vecAt part i = p
  · obtain ⟨hk, _⟩ := getElem_vertsTo part p i i0 i1 hp
    simp [hp, hk]
  · simp [hp]

theorem below_succ (part : List Int) (p : Int) : below part (p + 1) = below part p + part.count p := by
  unfold below
  induction part with
  | nil => rfl
  | cons x xs ih =>
    rw [List.countP_cons, List.countP_cons, List.count_cons]
    by_cases h1 : x < p
    · have h2 : x < p + 1 := by omega
      have h3 : x ≠ p := by omega
      simp [h1, h2, h3]; omega
    · by_cases h2 : x = p
      · have h3 : x < p + 1 := by omega
        simp [h2]; omega
      · have h3 : ¬ x < p + 1 := by omega
        simp [h1, h2, h3]; omega

theorem below_mono (part : List Int) {p q : Int} (h : p ≤ q) : below part p ≤ below part q := by
  unfold below
  have := List.countP_mono_left (l := part) (p := fun x => decide (x < p)) (q := fun x => decide (x < q)) (by
    intro x _ hx; simp only [decide_eq_true_eq] at hx ⊢; omega)
  omega

theorem below_nonneg (part : List Int) (p : Int) : 0 ≤ below part p := by unfold below; omega

theorem below_zero (part : List Int) (h : ∀ x ∈ part, 0 ≤ x) : below part 0 = 0 := by
  unfold below
  rw [List.countP_eq_zero.mpr (by intro x hx; have := h x hx; simp; omega)]
  rfl

theorem below_all (part : List Int) (P : Int) (h : ∀ x ∈ part, x < P) : below part P = part.length := by
  unfold below
  rw [List.countP_eq_length.mpr (by intro x hx; have := h x hx; simp; omega)]

theorem below_le (part : List Int) (P : Int) : below part P ≤ part.length := by
  unfold below
  exact_mod_cast List.countP_le_length

/-- Vertices of one process get its range of numbers. -/
theorem newIndex_range (part : List Int) (v : Int) (h0 : 0 ≤ v) (h1 : v < (part.length : Int)) :
    below part (vecAt part v) ≤ newIndex part v ∧ newIndex part v < below part (vecAt part v + 1) := by
  obtain ⟨hk, _⟩ := getElem_vertsTo part _ v h0 h1 rfl
  rw [length_vertsTo part _ _ le_rfl, List.take_length] at hk
  unfold newIndex
  rw [below_succ]
  omega

theorem newIndex_inj (part : List Int) (v w : Int) (v0 : 0 ≤ v) (v1 : v < (part.length : Int)) (w0 : 0 ≤ w) (w1 : w < (part.length : Int))
    (h : newIndex part v = newIndex part w) : v = w := by
  have rv := newIndex_range part v v0 v1
  have rw' := newIndex_range part w w0 w1
  have hp : vecAt part v = vecAt part w := by
    rcases lt_trichotomy (vecAt part v) (vecAt part w) with hc | hc | hc
    · have := below_mono part (show vecAt part v + 1 ≤ vecAt part w by omega); omega
    · exact hc
    · have := below_mono part (show vecAt part w + 1 ≤ vecAt part v by omega); omega
  obtain ⟨k1, e1⟩ := getElem_vertsTo part _ v v0 v1 rfl
  obtain ⟨k2, e2⟩ := getElem_vertsTo part _ w w0 w1 hp.symm
  have hc : (part.take v.toNat).count (vecAt part v) = (part.take w.toNat).count (vecAt part v) := by
    unfold newIndex at h
    rw [← hp] at h
    omega
  rw [← e1, ← e2]
  simp only [hc]

theorem layout (part : List Int) (p : Int) : Layout part.length (vertsTo part p part.length) (newIndex part) (below part p)
    (below part (p + 1)) where
  s0_nonneg := below_nonneg part p
  s1_eq := by rw [below_succ, length_vertsTo part p _ le_rfl, List.take_length]
  s1_le := below_le part _
  range := fun v hv => (mem_vertsTo.mp hv).1
  into := fun v h0 h1 => by
    have r := newIndex_range part v h0 h1
    have := below_nonneg part (vecAt part v)
    have := below_le part (vecAt part v + 1)
    omega
  inj := newIndex_inj part
  own := fun k hk => by
    have hm := mem_vertsTo.mp (List.getElem_mem hk)
    have hc := count_vertsTo part p _ le_rfl k hk
    unfold newIndex
    rw [hm.2, hc]
  other := fun w h0 h1 hw => by
    have r := newIndex_range part w h0 h1
    rcases lt_trichotomy (vecAt part w) p with hc | hc | hc
    · have := below_mono part (show vecAt part w + 1 ≤ p by omega); omega
    · exact absurd (mem_vertsTo.mpr ⟨⟨h0, h1⟩, hc⟩) hw
    · have := below_mono part (show p + 1 ≤ vecAt part w by omega); omega

theorem zip_range {β γ : Type} (n : Nat) (f : Nat → β) (g : Nat → γ) :
    ((List.range n).map f).zip ((List.range n).map g) = (List.range n).map (fun r => (f r, g r)) := List.zip_map' ..

theorem parSplit_eq [Zero α] [Add α] (srt : Csr.Sorter) (reorder : Csr α → Csr α) (P : Nat) (A : Csr α) (part : List Int)
    (hsq : A.rows = A.cols) (hlen : A.rows = (part.length : Int)) (hpart : ∀ x ∈ part, 0 ≤ x ∧ x < (P : Int)) :
    parSplit srt reorder P A part = (List.range P).mapM (fun r : Nat => splitLocal srt reorder A (vertsTo part r part.length)
      [below part r, below part (r + 1), (part.length : Int)] (vecFn part.length (newIndex part))) := by
  unfold parSplit
  rw [cassert_true hsq, ok_bind]
  have e1 : (iota P).mapM (fun me => localPart me part) = .ok ((List.range P).map (fun r : Nat => vertsTo part r part.length)) := by
    rw [mapM_ok (iota P) _ (fun me => vertsTo part me part.length) (fun b _ => localPart_eq b part)]
    unfold iota
    rw [List.map_map]; rfl
  rw [e1, ok_bind, List.map_map]
  have hsz : ∀ r : Nat, r ≤ P → (((List.range P).map (fun r : Nat => ((vertsTo part r part.length).length : Int))).take r).sum = below part r := by
    intro r hr
    induction r with
    | zero =>
      rw [List.take_zero]
      exact (below_zero part (fun x hx => (hpart x hx).1)).symm
    | succ r ih =>
      rw [List.take_succ_eq_append_getElem (by rw [List.length_map, List.length_range]; omega), List.sum_append, ih (by omega), List.sum_singleton]
      simp only [List.getElem_map, List.getElem_range]
      rw [length_vertsTo part r _ le_rfl, List.take_length]
      push_cast
      rw [below_succ]
  have htot : ((List.range P).map (fun r : Nat => ((vertsTo part r part.length).length : Int))).sum = (part.length : Int) := by
    have := hsz P le_rfl
    rw [List.take_of_length_le (by simp)] at this
    rw [this, below_all part P (fun x hx => (hpart x hx).2)]
  rw [generateOffsets1_eq, ok_bind]
  have e2 : (List.range ((List.range P).map ((fun lp : List Int => (lp.length : Int)) ∘ fun r : Nat => vertsTo part r part.length)).length).map
      (fun r => [(((List.range P).map ((fun lp : List Int => (lp.length : Int)) ∘ fun r : Nat => vertsTo part r part.length)).take r).sum,
        (((List.range P).map ((fun lp : List Int => (lp.length : Int)) ∘ fun r : Nat => vertsTo part r part.length)).take (r + 1)).sum,
        ((List.range P).map ((fun lp : List Int => (lp.length : Int)) ∘ fun r : Nat => vertsTo part r part.length)).sum])
      = (List.range P).map (fun r : Nat => [below part r, below part (r + 1), (part.length : Int)]) := by
    rw [List.length_map, List.length_range]
    apply List.map_congr_left
    intro r hr
    have hr' := List.mem_range.mp hr
    have a := hsz r (by omega)
    have b := hsz (r + 1) (by omega)
    have c := htot
    push_cast at b
    rw [← a, ← b, ← c]
    rfl
  rw [e2, zip_range, List.mapM_map]
  have e3 : (List.range P).mapM ((fun p : List Int × List Int => localPerm A.rows p.1 p.2) ∘
        fun r : Nat => (vertsTo part r part.length, [below part r, below part (r + 1), (part.length : Int)]))
      = .ok ((List.range P).map (fun r : Nat => vecFn part.length (fun v => if vecAt part v = r
        then ((part.take v.toNat).count (r : Int) : Int) + below part r else 0))) := by
    apply mapM_ok
    intro r _
    simp only [Function.comp]
    rw [hlen, localPerm_eq]
  rw [e3, ok_bind, mpiScan_eq part.length _ (by
    intro b hb
    obtain ⟨r, _, rfl⟩ := List.mem_map.mp hb
    exact length_vecFn _ _), ok_bind]
  have hbef : ∀ (r : Nat), r ≤ P → ∀ v, 0 ≤ v → v < (part.length : Int) →
      before ((List.range P).map (fun r : Nat => vecFn part.length (fun v => if vecAt part v = r
        then ((part.take v.toNat).count (r : Int) : Int) + below part r else 0))) r v
      = if vecAt part v < (r : Int) then newIndex part v else 0 := by
    intro r hr v v0 v1
    have hv : 0 ≤ vecAt part v := (hpart _ (by rw [vecAt_int part v0 v1]; exact List.getElem_mem _)).1
    induction r with
    | zero =>
      rw [if_neg (by push_cast; omega)]
      simp [before]
    | succ r ih =>
      rw [before_succ _ r (by rw [List.length_map, List.length_range]; omega), ih (by omega)]
      simp only [List.getElem_map, List.getElem_range]
      rw [(is_vecFn part.length _).vecAt_eq v0 v1]
      by_cases h1 : vecAt part v < (r : Int)
      · rw [if_pos h1, if_neg (by omega), if_pos (by push_cast; omega), add_zero]
      · rw [if_neg h1]
        by_cases h2 : vecAt part v = (r : Int)
        · rw [if_pos h2, if_pos (by push_cast; omega)]
          unfold newIndex
          rw [h2]; ring
        · rw [if_neg h2, if_neg (by push_cast; omega), add_zero]
  rw [List.length_map, List.length_range, mpiBcastLast_eq, ok_bind]
  rw [zip_range, zip_range, List.mapM_map]
  rcases Nat.eq_zero_or_pos P with rfl | hP
  · rfl
  · have hperm : vecFn part.length (fun k => before ((List.range P).map (fun r : Nat => vecFn part.length (fun v => if vecAt part v = r
        then ((part.take v.toNat).count (r : Int) : Int) + below part r else 0))) (P - 1 + 1) k) = vecFn part.length (newIndex part) := by
      apply vecFn_congr
      intro i i0 i1
      rw [Nat.sub_add_cancel hP, hbef P le_rfl i i0 i1]
      have := (hpart _ (show vecAt part i ∈ part by rw [vecAt_int part i0 i1]; exact List.getElem_mem _)).2
      rw [if_pos this]
    rw [hperm]
    rfl

end Par

/-! ## C66 -/

/-- **C66.**  The new numbering is a permutation of `0 .. n-1` in which the vertices of each process are contiguous, in rank order, and
keep their order. -/
theorem C66_numbering (part : List Int) :
    (∀ v, 0 ≤ v → v < (part.length : Int) → 0 ≤ Par.newIndex part v ∧ Par.newIndex part v < (part.length : Int)) ∧
    (∀ v w, 0 ≤ v → v < (part.length : Int) → 0 ≤ w → w < (part.length : Int) →
      (Par.newIndex part v < Par.newIndex part w ↔ vecAt part v < vecAt part w ∨ (vecAt part v = vecAt part w ∧ v < w))) := by
  refine ⟨fun v h0 h1 => (Par.layout part 0).into v h0 h1, fun v w v0 v1 w0 w1 => ?_⟩
  have key : ∀ v w, 0 ≤ v → v < (part.length : Int) → 0 ≤ w → w < (part.length : Int) →
      (vecAt part v < vecAt part w ∨ (vecAt part v = vecAt part w ∧ v < w)) → Par.newIndex part v < Par.newIndex part w := by
    intro v w v0 v1 w0 w1 h
    have rv := Par.newIndex_range part v v0 v1
    have rw' := Par.newIndex_range part w w0 w1
    rcases h with h | ⟨h, hlt⟩
    · have := Par.below_mono part (show vecAt part v + 1 ≤ vecAt part w by omega); omega
    · have hle : Par.newIndex part v ≤ Par.newIndex part w := by
        unfold Par.newIndex
        rw [← h]
        have hsub : (part.take v.toNat).Sublist (part.take w.toNat) := List.take_sublist_take_left (by omega)
        have := hsub.count_le (vecAt part v)
        omega
      have hne : Par.newIndex part v ≠ Par.newIndex part w := fun e => by
        have := Par.newIndex_inj part v w v0 v1 w0 w1 e; omega
      omega
  refine ⟨fun h => ?_, key v w v0 v1 w0 w1⟩
  by_contra hn
  rcases eq_or_ne v w with rfl | hne
  · omega
  · have := key w v w0 w1 v0 v1 (by omega)
    omega

/-- **C66.**  What `ParSplit` gives every process, for every square matrix and every assignment of vertices to the processes: a
well-formed share with the range of its vertices, in which the coefficient of vertices `v`, `w` is that of `A` except below the diagonal
of the diagonal block, where it is the mirrored one. -/
theorem C66_split [AddCommMonoid R] (srt : Csr.Sorter) (hs : IsSort srt) (reorder : Csr R → Csr R) (hre : Reorders reorder) (P : Nat)
    (A : Csr R) (hA : A.WF) (hsq : A.rows = A.cols) (part : List Int) (hlen : A.rows = (part.length : Int))
    (hpart : ∀ x ∈ part, 0 ≤ x ∧ x < (P : Int)) :
    ∃ Ms, Par.parSplit srt reorder P A part = .ok Ms ∧ Ms.length = P ∧ ∀ (r : Nat) (h : r < Ms.length),
      Ms[r].WF (Par.below part r) (Par.below part (r + 1)) part.length (Par.below part r) (Par.below part (r + 1)) part.length ∧
      ∀ v w, 0 ≤ v → v < (part.length : Int) → 0 ≤ w → w < (part.length : Int) → vecAt part v = r →
        Ms[r].coef (Par.newIndex part v - Par.below part r) (Par.newIndex part w)
          = if vecAt part w = r ∧ w < v then A.coef w v else A.coef v w := by
  rw [Par.parSplit_eq srt reorder P A part hsq hlen hpart]
  have hloc := fun r : Nat => Par.splitLocal_ok srt hs reorder hre (Par.layout part (r : Int)) A hA hlen (by rw [← hsq]; exact hlen)
  choose M m1 m2 m3 m4 m5 m6 using hloc
  rw [mapM_ok (List.range P) _ M (fun r _ => m1 r)]
  refine ⟨_, rfl, by simp, fun r h => ?_⟩
  have hr : r < P := by simpa using h
  simp only [List.getElem_map, List.getElem_range]
  refine ⟨m2 r, fun v w v0 v1 w0 w1 hv => ?_⟩
  obtain ⟨k1, e1⟩ := Par.getElem_vertsTo part r v v0 v1 hv
  have hk : Par.newIndex part v - Par.below part r = ((part.take v.toNat).count (r : Int) : Int) := by
    unfold Par.newIndex; rw [hv]; omega
  rw [hk]
  by_cases hw : vecAt part w = r
  · obtain ⟨k2, e2⟩ := Par.getElem_vertsTo part r w w0 w1 hw
    have hl : Par.newIndex part w = Par.below part r + ((part.take w.toNat).count (r : Int) : Int) := by
      unfold Par.newIndex; rw [hw]
    have h3 := m3 r _ _ k1 k2
    rw [e1, e2] at h3
    have hord := (C66_numbering part).2 w v w0 w1 v0 v1
    rw [hv, hw] at hord
    rw [hl, h3]
    by_cases hwv : w < v
    · have := hord.mpr (Or.inr ⟨rfl, hwv⟩)
      rw [if_neg (by omega), if_pos ⟨hw, hwv⟩]
    · have : ¬ Par.newIndex part w < Par.newIndex part v := fun x => by
        rcases hord.mp x with hx | hx
        · omega
        · exact hwv hx.2
      rw [if_pos (by omega), if_neg (fun x => hwv x.2)]
  · have h4 := m4 r _ k1 w w0 w1 (fun hm => hw (Par.mem_vertsTo.mp hm).2)
    rw [e1] at h4
    rw [h4, if_neg (fun x => hw x.1)]

/-- **C66.**  Each position of the diagonal block is stored at most once: that of two vertices of the process if `A` stores the one of them in
the row of the vertex that comes first. -/
theorem C66_pattern [AddCommMonoid R] (srt : Csr.Sorter) (hs : IsSort srt) (reorder : Csr R → Csr R) (hre : Reorders reorder) (P : Nat)
    (A : Csr R) (hA : A.WF) (hsq : A.rows = A.cols) (part : List Int) (hlen : A.rows = (part.length : Int))
    (hpart : ∀ x ∈ part, 0 ≤ x ∧ x < (P : Int)) (Ms : List (ParMat R)) (h : Par.parSplit srt reorder P A part = .ok Ms) (r : Nat)
    (hr : r < Ms.length) :
    Ms[r].diag.NoDup ∧ ∀ v w, 0 ≤ v → v < (part.length : Int) → 0 ≤ w → w < (part.length : Int) → vecAt part v = r → vecAt part w = r →
      (Ms[r].diag.Stored (Par.newIndex part v - Par.below part r) (Par.newIndex part w - Par.below part r) ↔
        if v ≤ w then A.Stored v w else A.Stored w v) := by
  rw [Par.parSplit_eq srt reorder P A part hsq hlen hpart] at h
  have hloc := fun r : Nat => Par.splitLocal_ok srt hs reorder hre (Par.layout part (r : Int)) A hA hlen (by rw [← hsq]; exact hlen)
  choose M m1 m2 m3 m4 m5 m6 using hloc
  rw [mapM_ok (List.range P) _ M (fun r _ => m1 r)] at h
  obtain rfl := Except.ok.inj h
  simp only [List.getElem_map, List.getElem_range]
  refine ⟨m5 r, fun v w v0 v1 w0 w1 hv hw => ?_⟩
  obtain ⟨k1, e1⟩ := Par.getElem_vertsTo part r v v0 v1 hv
  obtain ⟨k2, e2⟩ := Par.getElem_vertsTo part r w w0 w1 hw
  have hk : Par.newIndex part v - Par.below part r = ((part.take v.toNat).count (r : Int) : Int) := by
    unfold Par.newIndex; rw [hv]; omega
  have hl : Par.newIndex part w - Par.below part r = ((part.take w.toNat).count (r : Int) : Int) := by
    unfold Par.newIndex; rw [hw]; omega
  have h6 := m6 r _ _ k1 k2
  rw [e1, e2] at h6
  rw [hk, hl, h6]
  have hord := (C66_numbering part).2 w v w0 w1 v0 v1
  rw [hv, hw] at hord
  by_cases hvw : v ≤ w
  · have : ¬ Par.newIndex part w < Par.newIndex part v := fun x => by
      rcases hord.mp x with hx | hx
      · omega
      · omega
    rw [if_pos (by omega), if_pos hvw]
  · have := hord.mpr (Or.inr ⟨rfl, by omega⟩)
    rw [if_neg (by omega), if_neg hvw]

/-- **C66 (partial).**  For symmetric `A` the shares represent `P A Pᵀ`: the coefficient at the new numbers of `v` and `w`, in the share
of the process of `v`, is `A`'s at `(v, w)`.  Missing: matrices that are not symmetric, for which it is false (`C66_false`). -/
theorem C66_symmetric_partial [AddCommMonoid R] (srt : Csr.Sorter) (hs : IsSort srt) (reorder : Csr R → Csr R) (hre : Reorders reorder)
    (P : Nat) (A : Csr R) (hA : A.WF) (hsq : A.rows = A.cols) (hsym : ∀ i j, A.coef i j = A.coef j i) (part : List Int)
    (hlen : A.rows = (part.length : Int)) (hpart : ∀ x ∈ part, 0 ≤ x ∧ x < (P : Int)) :
    ∃ Ms, Par.parSplit srt reorder P A part = .ok Ms ∧ Ms.length = P ∧ ∀ (r : Nat) (h : r < Ms.length),
      Ms[r].WF (Par.below part r) (Par.below part (r + 1)) part.length (Par.below part r) (Par.below part (r + 1)) part.length ∧
      ∀ v w, 0 ≤ v → v < (part.length : Int) → 0 ≤ w → w < (part.length : Int) → vecAt part v = r →
        Ms[r].coef (Par.newIndex part v - Par.below part r) (Par.newIndex part w) = A.coef v w := by
  obtain ⟨Ms, h1, h2, h3⟩ := C66_split srt hs reorder hre P A hA hsq part hlen hpart
  refine ⟨Ms, h1, h2, fun r h => ⟨(h3 r h).1, fun v w v0 v1 w0 w1 hv => ?_⟩⟩
  rw [(h3 r h).2 v w v0 v1 w0 w1 hv]
  by_cases hc : vecAt part w = r ∧ w < v
  · rw [if_pos hc, hsym]
  · rw [if_neg hc]

/-- **C66.**  For a matrix that is not symmetric the share can be wrong even on one process: the entry below the diagonal is lost and
the one above it appears twice. -/
theorem C66_false : ∃ A : Csr Int, A.WF ∧ A.rows = 2 ∧ A.cols = 2 ∧ ∃ M, Par.parSplit Par.exSort id 1 A [0, 0] = .ok [M] ∧
    A.coef 0 1 = 5 ∧ A.coef 1 0 = 7 ∧ M.coef 0 1 = 5 ∧ M.coef 1 0 = 5 :=
  ⟨⟨2, 2, [0, 1, 2], [1, 0], [5, 7]⟩, by decide, rfl, rfl,
    ⟨2, 2, [0, 2, 2], [0, 2, 2], ⟨2, 2, [0, 1, 2], [1, 0], [5, 5]⟩, ⟨2, 0, [0, 0, 0], [], []⟩, []⟩,
    by decide +kernel, by decide +kernel, by decide +kernel, by decide +kernel, by decide +kernel⟩

/-- **C66.**  A matrix that is not square is rejected. -/
theorem C66_rejects [Zero α] [Add α] (srt : Csr.Sorter) (reorder : Csr α → Csr α) (P : Nat) (A : Csr α) (part : List Int)
    (h : A.rows ≠ A.cols) : Par.parSplit srt reorder P A part = .error .assertFail := by
  unfold Par.parSplit
  rw [cassert_false h]; rfl

/-- C66: a symmetric matrix with three vertices, of which the first and last go to process 1. -/
example : ∃ A : Csr Int, A.WF ∧ A.rows = A.cols ∧ (∀ i ∈ iota 3, ∀ j ∈ iota 3, A.coef i j = A.coef j i) ∧
    A.rows = (([1, 0, 1] : List Int).length : Int) ∧ (∀ x ∈ ([1, 0, 1] : List Int), 0 ≤ x ∧ x < ((2 : Nat) : Int)) ∧
    Par.newIndex [1, 0, 1] 0 = 1 ∧ Par.newIndex [1, 0, 1] 1 = 0 ∧ Par.newIndex [1, 0, 1] 2 = 2 ∧
    Par.parSplit Par.exSort id 2 A [1, 0, 1] = .ok
      [⟨1, 1, [0, 1, 3], [0, 1, 3], ⟨1, 1, [0, 1], [0], [2]⟩, ⟨1, 1, [0, 1], [0], [4]⟩, [1]⟩,
       ⟨2, 2, [1, 3, 3], [1, 3, 3], ⟨2, 2, [0, 2, 4], [0, 1, 0, 1], [1, 6, 6, 3]⟩, ⟨2, 1, [0, 1, 1], [0], [4]⟩, [0]⟩] :=
  ⟨⟨3, 3, [0, 3, 5, 7], [0, 1, 2, 0, 1, 0, 2], [1, 4, 6, 4, 2, 6, 3]⟩, by decide, rfl, by decide +kernel, rfl, by decide,
    by decide, by decide, by decide, by decide +kernel⟩

end Linalg
