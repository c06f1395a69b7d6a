import Verif.Spec.Par
import Verif.Proof.Vec
import Verif.Proof.Coo
import Verif.Proof.Sort
import Verif.Proof.Triples
import Verif.Props.Coo

/-! # Distributed matrices: helper lemmas -/

namespace Linalg
open Cpp

variable {α β R : Type}

theorem tripleCoef_triplesL [AddCommMonoid R] (n : Int) (rs : List (List (Int × R))) (i j : Int) :
    tripleCoef (triplesL rs) i j = (Csr.ofRows n rs).coef i j := by
  have e := tripleCoef_map (triplesL rs) (fun t => t) i j
  rw [List.map_id'] at e
  rw [e]
  have := sum_triplesL rs (fun a e => if a = i ∧ e.1 = j then e.2 else (0 : R))
  rw [this]
  by_cases h : 0 ≤ i ∧ i < rs.length
  · rw [Finset.sum_eq_single i]
    · rw [coef_ofRows_getD n rs h.1, rowCoef_eq_sum_ite]
      simp
    · intro b _ hb
      simp [hb]
    · intro hn; simp [h] at hn
  · rw [Finset.sum_eq_zero]
    · by_cases h0 : 0 ≤ i
      · rw [coef_ofRows_getD n rs h0, List.getD_eq_getElem?_getD, List.getElem?_eq_none (by omega)]; rfl
      · rw [Csr.coef_eq, Csr.row_neg _ (by omega)]; rfl
    · intro b hb
      rw [Finset.mem_Ico] at hb
      have : b ≠ i := by rintro rfl; exact h hb
      simp [this]

/-- Local entries in global numbering. -/
def glob (cm : List Int) (es : List (Int × Int × α)) : List (Int × Int × α) := es.map (fun e => (e.1, vecAt cm e.2.1, e.2.2))

theorem tripleCoef_glob [AddCommMonoid R] (cm : List Int) (n : Int) (es : List (Int × Int × R))
    (h : ∀ e ∈ es, 0 ≤ e.2.1 ∧ e.2.1 < n) (i c : Int) :
    tripleCoef (glob cm es) i c = ∑ k ∈ Finset.Ico (0 : Int) n, if vecAt cm k = c then tripleCoef es i k else 0 := by
  induction es with
  | nil => simp [glob]
  | cons e es ih =>
    have hg : glob cm (e :: es) = (e.1, vecAt cm e.2.1, e.2.2) :: glob cm es := rfl
    rw [hg, tripleCoef_cons, ih (fun x hx => h x (by simp [hx]))]
    have he := h e (by simp)
    have hs : ∀ k, (if vecAt cm k = c then tripleCoef (e :: es) i k else 0)
        = (if k = e.2.1 then (if e.1 = i ∧ vecAt cm e.2.1 = c then e.2.2 else 0) else 0)
          + (if vecAt cm k = c then tripleCoef es i k else 0) := by
      intro k
      rw [tripleCoef_cons]
      by_cases h1 : k = e.2.1
      · subst h1
        by_cases h2 : vecAt cm e.2.1 = c <;> simp [h2]
      · have h1' : ¬ e.2.1 = k := fun x => h1 x.symm
        simp [h1, h1']
    simp_rw [hs, Finset.sum_add_distrib, Finset.sum_ite_eq' (Finset.Ico (0 : Int) n)]
    have hm : e.2.1 ∈ Finset.Ico (0 : Int) n := Finset.mem_Ico.mpr he
    simp only [hm, if_true]

theorem forUp_unit {a b : Int} {f : Int → Unit → Res Unit} :
    forUp a b () f = .ok () ↔ ∀ i, a ≤ i → i < b → f i () = .ok () := by
  by_cases hab : a ≤ b
  · obtain ⟨n, rfl⟩ : ∃ n : Nat, b = a + n := ⟨(b - a).toNat, by omega⟩
    clear hab
    induction n generalizing a with
    | zero =>
      constructor
      · intro _ i h1 h2; simp at h2; omega
      · intro _; simp [forUp, forN]
    | succ n ih =>
      rw [forUp_cons (by push_cast; omega), bind_eq_ok]
      have e : a + ((n + 1 : Nat) : Int) = (a + 1) + (n : Int) := by push_cast; ring
      rw [e]
      constructor
      · rintro ⟨u, h1, h2⟩ i hi1 hi2
        obtain rfl : u = () := rfl
        rcases eq_or_lt_of_le hi1 with rfl | hi
        · exact h1
        · exact (ih.mp h2) i (by omega) hi2
      · intro h
        exact ⟨(), h a le_rfl (by omega), ih.mpr (fun i h1 h2 => h i (by omega) h2)⟩
  · constructor
    · intro _ i h1 h2; omega
    · intro _; rw [forUp_nil (by omega)]

namespace Par

/-! ## SortColumnMap -/

theorem inverseLoop (n : Nat) (perm : List Int) (hp : perm.Perm (iota n)) :
    ∃ c : List Int, forUp 0 (n : Int) (List.replicate n (0 : Int)) (fun i c => do
      let p ← rd perm i
      wr c p i) = .ok c ∧ c.length = n ∧ ∀ (m : Nat) (h : m < perm.length), rd c perm[m] = .ok (m : Int) := by
  have hl : perm.length = n := by rw [hp.length_eq, length_iota]
  have hb : ∀ x ∈ perm, 0 ≤ x ∧ x < (n : Int) := fun x hx => mem_iota.mp (hp.mem_iff.mp hx)
  have hnd : perm.Nodup := by
    rw [hp.nodup_iff]
    unfold iota
    exact List.nodup_range.map (fun a b h => by simpa using h)
  obtain ⟨c, h1, h2, h3⟩ := forUp_inv_nat (n := n) (f := fun i (c : List Int) => (do
      let p ← rd perm i
      wr c p i : Res (List Int)))
    (fun k c => c.length = n ∧ ∀ (m : Nat) (h : m < perm.length), m < k → rd c perm[m] = .ok (m : Int))
    (s := List.replicate n (0 : Int)) ⟨by simp, by intro m _ h; omega⟩ (by
      rintro k c hk ⟨e1, e2⟩
      have hx := hb _ (List.getElem_mem (show k < perm.length by omega))
      rw [rd_nat (by omega : k < perm.length), ok_bind, wr_int hx.1 (by omega)]
      refine ⟨_, rfl, by simpa using e1, fun m h hm => ?_⟩
      have hy := hb _ (List.getElem_mem h)
      rw [rd_eq_ok]
      refine ⟨hy.1, ?_⟩
      by_cases hmk : m = k
      · subst hmk
        rw [List.getElem?_set_self (by omega)]
      · have hne : perm[k] ≠ perm[m] := fun e => hmk ((hnd.getElem_inj_iff.mp e).symm)
        rw [List.getElem?_set_ne (by omega)]
        exact (rd_eq_ok.mp (e2 m h (by omega))).2)
  exact ⟨c, h1, h2, fun m h => h3 m h (by omega)⟩

theorem sortColumnMap_ok (srt : Csr.Sorter) (hs : IsSort srt) (cm : List Int) (C : Coo α) (hC : C.WF)
    (hcols : C.findSize.2 = (cm.length : Int)) :
    ∃ cm' C', sortColumnMap srt cm C = .ok (cm', C') ∧ cm'.Perm cm ∧ cm'.Pairwise (· ≤ ·) ∧ C'.rows = C.rows ∧ C'.cols = C.cols ∧
      C'.sizeSet = C.sizeSet ∧ (∀ e ∈ C'.entries, 0 ≤ e.2.1 ∧ e.2.1 < (cm.length : Int)) ∧
      glob cm' C'.entries = glob cm C.entries := by
  obtain ⟨p1, p2⟩ := hs (fun a => cm.getD a.toNat 0) (iota cm.length)
  unfold sortColumnMap
  simp only
  generalize hperm : srt (fun a b => decide (cm.getD a.toNat 0 < cm.getD b.toNat 0)) (iota cm.length) = perm at p1 p2 ⊢
  have hl : perm.length = cm.length := by rw [p1.length_eq, length_iota]
  have hb : ∀ x ∈ perm, 0 ≤ x ∧ x < (cm.length : Int) := fun x hx => mem_iota.mp (p1.mem_iff.mp hx)
  have hv : ∀ x, 0 ≤ x → vecAt cm x = cm.getD x.toNat 0 := fun x h => by simp [vecAt, h]
  obtain ⟨ci, c1, c2, c3⟩ := inverseLoop cm.length perm p1
  rw [c1, ok_bind]
  unfold Coo.permuteCols
  rw [cassert_true (by rw [c2, hcols]), ok_bind]
  have hidx : ∀ e ∈ C.entries, ∃ m : Nat, ∃ h : m < perm.length, perm[m] = e.2.1 ∧ rd ci e.2.1 = .ok (m : Int) := by
    intro e he
    have hin := (hC.in_size e he).2
    have hmem : e.2.1 ∈ perm := p1.mem_iff.mpr (mem_iota.mpr ⟨hin.1, by omega⟩)
    obtain ⟨m, hm, hpm⟩ := List.getElem_of_mem hmem
    exact ⟨m, hm, hpm, by rw [← hpm]; exact c3 m hm⟩
  have hmap := mapM_ok C.entries (fun e => (do
      let j ← rd ci e.2.1
      .ok (e.1, j, e.2.2) : Res (Int × Int × α))) (fun e => (e.1, vecAt ci e.2.1, e.2.2)) (by
    intro e he
    have hin := (hC.in_size e he).2
    rw [rd_vecAt ci hin.1 (by omega), ok_bind])
  rw [hmap]
  simp only [ok_bind]
  have hci : ci = vecFn cm.length (vecAt ci) := by rw [← c2]; exact eq_vecFn_vecAt ci
  have hloop : forUp 0 (cm.length : Int) ci (fun i c => do
      let p ← rd perm i
      let g ← rd cm p
      wr c i g) = .ok (vecFn cm.length (fun i => vecAt cm (vecAt perm i))) := by
    rw [hci]
    refine fillLoop _ _ _ (fun i h h0 h1 _ => ?_)
    rw [rd_vecAt perm h0 (by omega), ok_bind]
    have := hb (vecAt perm i) (by rw [vecAt_int perm h0 (by omega)]; exact List.getElem_mem _)
    rw [rd_vecAt cm this.1 this.2, ok_bind]
  rw [hloop, ok_bind]
  have hcm' : vecFn cm.length (fun i => vecAt cm (vecAt perm i)) = perm.map (fun x => vecAt cm x) := by
    apply List.ext_getElem
    · simp [hl]
    · intro k h1 h2
      have hk : k < perm.length := by simpa using h2
      simp [vecFn, vecAt_nat perm k hk]
  refine ⟨_, _, rfl, ?_, ?_, rfl, rfl, rfl, ?_, ?_⟩
  · rw [hcm']
    have h1 := p1.map (fun x => vecAt cm x)
    have h2 : (iota cm.length).map (fun x => vecAt cm x) = cm := by
      rw [← vecFn_iota]; exact (eq_vecFn_vecAt cm).symm
    rwa [h2] at h1
  · rw [hcm', List.pairwise_map]
    refine List.Pairwise.imp_of_mem ?_ p2
    intro a b ha hb' hab
    rw [hv a (hb a ha).1, hv b (hb b hb').1]
    exact hab
  · intro e he
    obtain ⟨e', he', rfl⟩ := List.mem_map.mp he
    obtain ⟨m, hm, _, hrd⟩ := hidx e' he'
    have hin := (hC.in_size e' he').2
    rw [rd_vecAt ci hin.1 (by omega)] at hrd
    have := Except.ok.inj hrd
    simp only
    omega
  · unfold glob
    rw [List.map_map]
    apply List.map_congr_left
    intro e he
    obtain ⟨m, hm, hpm, hrd⟩ := hidx e he
    have hin := (hC.in_size e he).2
    rw [rd_vecAt ci hin.1 (by omega)] at hrd
    have hcim := Except.ok.inj hrd
    simp only [Function.comp]
    rw [hcim, hcm', vecAt_nat _ m (by simpa using hm), List.getElem_map, hpm]

/-! ## Collecting the off-process columns -/

/-- After processing `items` (local row, global column, value): the columns found, in order of appearance, the marker with their
positions, and the collected entries. -/
structure OffInv (N : Nat) (items : List (Int × Int × α)) (C : Coo α) (colMap marker : List Int) : Prop where
  colMap_eq : colMap = firstOcc (items.map (fun t => t.2.1))
  marker_len : marker.length = N
  marker_old : ∀ k : Nat, ∀ h : k < colMap.length, rd marker colMap[k] = .ok (k : Int)
  marker_new : ∀ g, 0 ≤ g → g < (N : Int) → g ∉ colMap → rd marker g = .ok (-1)
  unsized : C.sizeSet = false
  rows_zero : C.rows = 0
  cols_zero : C.cols = 0
  entry_rows : ∀ e ∈ C.entries, 0 ≤ e.1
  entry_cols : ∀ e ∈ C.entries, 0 ≤ e.2.1 ∧ e.2.1 < (colMap.length : Int)
  glob_eq : glob colMap C.entries = items

theorem OffInv.init (N : Nat) : OffInv N ([] : List (Int × Int × α)) Coo.new [] (List.replicate N (-1)) where
  colMap_eq := rfl
  marker_len := by simp
  marker_old := by intro k h; simp at h
  marker_new := by
    intro g h0 h1 _
    rw [rd_int h0 (by simpa using h1)]; simp
  unsized := rfl
  rows_zero := rfl
  cols_zero := rfl
  entry_rows := by simp [Coo.new]
  entry_cols := by simp [Coo.new]
  glob_eq := rfl

theorem OffInv.old {N : Nat} {items : List (Int × Int × α)} {C : Coo α} {cm marker : List Int} (h : OffInv N items C cm marker)
    {g : Int} (hg : g ∈ cm) {i : Int} (hi : 0 ≤ i) (v : α) :
    ∃ m, 0 ≤ m ∧ rd marker g = .ok m ∧ C.add i m v = .ok { C with entries := C.entries ++ [(i, m, v)] } ∧
      OffInv N (items ++ [(i, g, v)]) { C with entries := C.entries ++ [(i, m, v)] } cm marker := by
  obtain ⟨k, hk, rfl⟩ := List.getElem_of_mem hg
  refine ⟨(k : Int), by omega, h.marker_old k hk, Coo.add_ok hi (by omega) (by simp [h.unsized]), ?_⟩
  constructor
  · rw [List.map_append, List.map_singleton, firstOcc_concat, ← h.colMap_eq, if_pos hg]
  · exact h.marker_len
  · exact h.marker_old
  · exact h.marker_new
  · exact h.unsized
  · exact h.rows_zero
  · exact h.cols_zero
  · intro e he
    rcases List.mem_append.mp he with he | he
    · exact h.entry_rows e he
    · rw [List.mem_singleton.mp he]; exact hi
  · intro e he
    rcases List.mem_append.mp he with he | he
    · exact h.entry_cols e he
    · rw [List.mem_singleton.mp he]; simp only; omega
  · show glob cm (C.entries ++ [(i, (k : Int), v)]) = _
    rw [← h.glob_eq]
    unfold glob
    rw [List.map_append, List.map_singleton]
    simp only
    rw [vecAt_nat cm k hk]

theorem OffInv.new {N : Nat} {items : List (Int × Int × α)} {C : Coo α} {cm marker : List Int} (h : OffInv N items C cm marker)
    {g : Int} (hg : g ∉ cm) (g0 : 0 ≤ g) (g1 : g < (N : Int)) {i : Int} (hi : 0 ≤ i) (v : α) :
    rd marker g = .ok (-1) ∧
      C.add i (cm.length : Int) v = .ok { C with entries := C.entries ++ [(i, (cm.length : Int), v)] } ∧
      ∃ marker', wr marker g (cm.length : Int) = .ok marker' ∧
      OffInv N (items ++ [(i, g, v)]) { C with entries := C.entries ++ [(i, (cm.length : Int), v)] } (cm ++ [g]) marker' := by
  refine ⟨h.marker_new g g0 g1 hg, Coo.add_ok hi (by omega) (by simp [h.unsized]), _,
    wr_int g0 (by rw [h.marker_len]; exact g1), ?_⟩
  have hlen := h.marker_len
  have hread : ∀ x, rd (marker.set g.toNat (cm.length : Int)) x = if x = g then .ok (cm.length : Int) else rd marker x := by
    intro x
    by_cases hx0 : 0 ≤ x
    · by_cases hx : x = g
      · rw [if_pos hx, hx, rd_eq_ok]
        exact ⟨g0, List.getElem?_set_self (by omega)⟩
      · rw [if_neg hx]
        unfold rd
        rw [if_pos hx0, if_pos hx0, List.getElem?_set_ne (by omega)]
    · have hx : x ≠ g := by omega
      rw [if_neg hx, rd_oob (Or.inl (by omega)), rd_oob (Or.inl (by omega))]
  constructor
  · rw [List.map_append, List.map_singleton, firstOcc_concat, ← h.colMap_eq, if_neg hg]
  · rw [List.length_set]; exact hlen
  · intro k hk
    rw [hread]
    by_cases hk' : k < cm.length
    · have : (cm ++ [g])[k] = cm[k] := List.getElem_append_left hk'
      rw [this, if_neg (fun e : cm[k] = g => hg (e ▸ List.getElem_mem hk'))]
      exact h.marker_old k hk'
    · have hke : k = cm.length := by simp at hk; omega
      subst hke
      simp
  · intro x x0 x1 hx
    rw [hread, if_neg (by rintro rfl; simp at hx)]
    exact h.marker_new x x0 x1 (fun hm => hx (by simp [hm]))
  · exact h.unsized
  · exact h.rows_zero
  · exact h.cols_zero
  · intro e he
    rcases List.mem_append.mp he with he | he
    · exact h.entry_rows e he
    · rw [List.mem_singleton.mp he]; exact hi
  · intro e he
    rw [List.length_append, List.length_singleton]
    rcases List.mem_append.mp he with he | he
    · have := h.entry_cols e he
      push_cast; omega
    · rw [List.mem_singleton.mp he]; push_cast; constructor <;> omega
  · show glob (cm ++ [g]) (C.entries ++ [(i, (cm.length : Int), v)]) = _
    rw [← h.glob_eq]
    unfold glob
    rw [List.map_append, List.map_singleton]
    congr 1
    · apply List.map_congr_left
      intro e he
      have := h.entry_cols e he
      rw [vecAt_int cm this.1 this.2, vecAt_int (cm ++ [g]) this.1 (by simp; omega)]
      congr 2
      exact List.getElem_append_left _
    · simp only
      rw [vecAt_nat (cm ++ [g]) cm.length (by simp)]
      simp

end Par

/-! ## The constructor of ParMatrix -/

theorem Csr.eq_of_empty {A : Csr α} (h : A.WF) (hr : A.rows = 0) (hc : A.cols = 0) : A = ⟨0, 0, [0], [], []⟩ := by
  obtain ⟨n, rs, hn, hrs, rfl⟩ := h.exists_rows
  have h1 : rs = [] := by
    have : (rs.length : Int) = 0 := hr
    exact List.length_eq_zero_iff.mp (by omega)
  have h2 : n = 0 := hc
  subst h1 h2
  rfl

theorem Csr.wf_zero {r : Int} (hr : 0 ≤ r) : ∃ A : Csr α, Csr.zero r 0 = .ok A ∧ A.WF ∧ A.rows = r ∧ A.cols = 0 ∧ A.data = [] := by
  obtain ⟨n, rfl⟩ := Int.eq_ofNat_of_zero_le hr
  refine ⟨Csr.ofRows 0 (List.replicate n []), ?_, Csr.wf_ofRows le_rfl ?_, by simp [Csr.ofRows], rfl, by simp [Csr.ofRows]⟩
  · unfold Csr.zero
    rw [cassert_true hr, cassert_true (by decide), show ((n : Int) + 1) = ((n + 1 : Nat) : Int) by push_cast; rfl, mkVec_nat]
    simp only [ok_bind]
    simp [Csr.ofRows, ptrs]
  · intro r hr e he
    rw [(List.mem_replicate.mp hr).2] at he
    cases he

namespace ParMat

theorem checkCol_ok (M : ParMat α) {c0 c1 cn : Int} (hc : M.colStarts = [c0, c1, cn]) (k : Nat) (hk : k < M.colMap.length) :
    M.checkCol (M.colMap.length : Int) (k : Int) = .ok () ↔
      (0 ≤ M.colMap[k] ∧ M.colMap[k] < cn) ∧ (c1 ≤ M.colMap[k] ∨ M.colMap[k] < c0) ∧
      (∀ h : 0 < k, M.colMap[k - 1] < M.colMap[k]) ∧ (∀ h : k + 1 < M.colMap.length, M.colMap[k] < M.colMap[k + 1]) := by
  have hg : M.globalCols = cn := by unfold globalCols; rw [hc]; rfl
  have r1 : rd M.colStarts 1 = .ok c1 := by rw [hc]; rfl
  have r0 : rd M.colStarts 0 = .ok c0 := by rw [hc]; rfl
  unfold checkCol
  rw [rd_nat hk, r1, r0, hg]
  simp only [ok_bind]
  by_cases a1 : M.colMap[k] ≥ 0 ∧ M.colMap[k] < cn
  swap
  · rw [cassert_false a1]
    constructor
    · intro h; cases h
    · rintro ⟨h, _⟩; exact absurd h a1
  rw [cassert_true a1, ok_bind]
  by_cases a2 : M.colMap[k] ≥ c1 ∨ M.colMap[k] < c0
  swap
  · rw [cassert_false a2]
    constructor
    · intro h; cases h
    · rintro ⟨_, h, _⟩; exact absurd h a2
  rw [cassert_true a2, ok_bind]
  have last : (if (k : Int) < (M.colMap.length : Int) - 1 then (do
      let n ← rd M.colMap ((k : Int) + 1)
      cassert (M.colMap[k] < n)) else (.ok () : Res Unit)) = .ok () ↔ (∀ h : k + 1 < M.colMap.length, M.colMap[k] < M.colMap[k + 1]) := by
    by_cases b : k + 1 < M.colMap.length
    · rw [if_pos (by omega), show ((k : Int) + 1) = ((k + 1 : Nat) : Int) by push_cast; rfl, rd_nat b, ok_bind]
      by_cases b2 : M.colMap[k] < M.colMap[k + 1]
      · rw [cassert_true b2]; simp [b2]
      · rw [cassert_false b2]; simp [b, b2]
    · rw [if_neg (by omega)]; simp [b]
  by_cases hk0 : 0 < k
  · have e : ((k : Int) - 1) = ((k - 1 : Nat) : Int) := by omega
    rw [if_pos (by omega), e, rd_nat (by omega), ok_bind]
    by_cases a3 : M.colMap[k] > M.colMap[k - 1]
    · rw [cassert_true a3]
      exact ⟨fun h => ⟨a1, a2, fun _ => a3, last.mp h⟩, fun h => last.mpr h.2.2.2⟩
    · rw [cassert_false a3]
      constructor
      · intro h; cases h
      · rintro ⟨_, _, h, _⟩; exact absurd (h hk0) a3
  · rw [if_neg (by omega)]
    exact ⟨fun h => ⟨a1, a2, fun h => absurd h hk0, last.mp h⟩, fun h => last.mpr h.2.2.2⟩

theorem checks_ok (M : ParMat α) {c0 c1 cn : Int} (hc : M.colStarts = [c0, c1, cn]) :
    forUp 0 (M.colMap.length : Int) () (fun i _ => M.checkCol (M.colMap.length : Int) i) = .ok () ↔
      M.colMap.Pairwise (· < ·) ∧ (∀ c ∈ M.colMap, 0 ≤ c ∧ c < cn) ∧ (∀ c ∈ M.colMap, c < c0 ∨ c1 ≤ c) := by
  rw [forUp_unit]
  constructor
  · intro h
    have h' : ∀ (k : Nat) (hk : k < M.colMap.length), _ := fun k hk =>
      (checkCol_ok M hc k hk).mp (h (k : Int) (by omega) (by omega))
    refine ⟨?_, ?_, ?_⟩
    · rw [← List.isChain_iff_pairwise, List.isChain_iff_getElem]
      intro k hk
      exact (h' k (by omega)).2.2.2 hk
    · intro c hcm
      obtain ⟨k, hk, rfl⟩ := List.getElem_of_mem hcm
      exact (h' k hk).1
    · intro c hcm
      obtain ⟨k, hk, rfl⟩ := List.getElem_of_mem hcm
      exact (h' k hk).2.1.symm
  · rintro ⟨h1, h2, h3⟩ i i0 i1
    obtain ⟨k, rfl⟩ := Int.eq_ofNat_of_zero_le i0
    have hk : k < M.colMap.length := by omega
    rw [checkCol_ok M hc k hk]
    rw [List.pairwise_iff_getElem] at h1
    exact ⟨h2 _ (List.getElem_mem hk), (h3 _ (List.getElem_mem hk)).symm, fun h => h1 _ _ _ _ (by omega), fun h => h1 _ _ _ _ (by omega)⟩

end ParMat
end Linalg
