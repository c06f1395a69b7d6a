import Verif.Proof.Par
import Mathlib.Data.List.Sort

/-! # Distributed matrices: column maps, the constructor and sums -/

namespace Linalg
open Cpp

variable {α R : Type}

/-! ## C64 -/

/-- **C64.**  `SortColumnMap` on a sized coordinate matrix with one column per element of the map: whatever `std::sort` does with
equal elements, the map ends up ascending with the same elements, and every entry keeps its row, its value and its global column. -/
theorem C64_sortColumnMap (srt : Csr.Sorter) (hs : IsSort srt) (cm : List Int) (C : Coo α) (hC : C.WF)
    (hcols : C.findSize.2 = (cm.length : Int)) :
    ∃ cm' C', Par.sortColumnMap srt cm C = .ok (cm', C') ∧ cm'.Perm cm ∧ cm'.Pairwise (· ≤ ·) ∧
      C'.rows = C.rows ∧ C'.cols = C.cols ∧ C'.sizeSet = C.sizeSet ∧
      (∀ e ∈ C'.entries, 0 ≤ e.2.1 ∧ e.2.1 < (cm'.length : Int)) ∧
      C'.entries.map (fun e => (e.1, vecAt cm' e.2.1, e.2.2)) = C.entries.map (fun e => (e.1, vecAt cm e.2.1, e.2.2)) := by
  obtain ⟨cm', C', h1, h2, h3, h4, h5, h6, h7, h8⟩ := Par.sortColumnMap_ok srt hs cm C hC hcols
  exact ⟨cm', C', h1, h2, h3, h4, h5, h6, by rw [h2.length_eq]; exact h7, h8⟩

/-- **C64.**  A map of a different length is rejected. -/
theorem C64_rejects (srt : Csr.Sorter) (hs : IsSort srt) (cm : List Int) (C : Coo α) (hcols : C.findSize.2 ≠ (cm.length : Int)) :
    Par.sortColumnMap srt cm C = .error .assertFail := by
  obtain ⟨p1, -⟩ := hs (fun a => cm.getD a.toNat 0) (iota cm.length)
  unfold Par.sortColumnMap
  simp only
  obtain ⟨ci, c1, c2, -⟩ := Par.inverseLoop cm.length _ p1
  rw [c1, ok_bind]
  unfold Coo.permuteCols
  rw [cassert_false (by rw [c2]; exact fun h => hcols h.symm)]
  rfl

/-! ## C74 -/

namespace ParMat

theorem new_eq (reorder : Csr α → Csr α) (r0 r1 rn c0 c1 cn : Int) (diag offd : Csr α) (cm : List Int)
    (hr : 0 ≤ r0 ∧ r0 ≤ r1 ∧ r1 ≤ rn) (hc : 0 ≤ c0 ∧ c0 ≤ c1 ∧ c1 ≤ cn) :
    ParMat.new reorder [r0, r1, rn] [c0, c1, cn] diag offd cm = (((if offd.rows = 0 ∧ offd.cols = 0 then Csr.zero (r1 - r0) 0 else .ok offd) : Res (Csr α)) >>= fun offd' => do
      let M : ParMat α := ⟨r1 - r0, c1 - c0, [r0, r1, rn], [c0, c1, cn], diag, offd', cm⟩
      cassert (diag.rows = r1 - r0)
      cassert (diag.cols = c1 - c0)
      cassert (offd'.rows = r1 - r0)
      cassert (offd'.cols = (cm.length : Int))
      forUp 0 (cm.length : Int) () (fun i _ => M.checkCol (cm.length : Int) i)
      .ok { M with diag := reorder diag }) := by
  have q0 : ∀ a b c : Int, rd [a, b, c] 0 = .ok a := fun _ _ _ => rfl
  have q1 : ∀ a b c : Int, rd [a, b, c] 1 = .ok b := fun _ _ _ => rfl
  have q2 : ∀ a b c : Int, rd [a, b, c] 2 = .ok c := fun _ _ _ => rfl
  unfold ParMat.new ParMat.init
  simp only [q0, q1, q2, ok_bind]
  rw [cassert_true (by omega), cassert_true (by omega), cassert_true (by simp), cassert_true (by simp), cassert_true (by simp),
    cassert_true (by simp), cassert_true (by omega), cassert_true (by omega), cassert_true (by omega), cassert_true (by omega)]
  by_cases hz : offd.rows = 0 ∧ offd.cols = 0
  · rw [if_pos hz, if_pos hz]; rfl
  · rw [if_neg hz, if_neg hz]; rfl

/-- An accepted share passed starts of three elements in order. -/
theorem new_starts {reorder : Csr α → Csr α} {rs cs : List Int} {diag offd : Csr α} {cm : List Int} {M : ParMat α}
    (h : ParMat.new reorder rs cs diag offd cm = .ok M) :
    ∃ r0 r1 rn c0 c1 cn, IsStarts rs r0 r1 rn ∧ IsStarts cs c0 c1 cn := by
  unfold ParMat.new ParMat.init at h
  simp only [bind_eq_ok, cassert_ok_iff] at h
  obtain ⟨r1, hr1, r0, hr0, c1, hc1, c0, hc0, _, a1, _, a2, _, a3, _, a4, _, a5, _, a6, r0', hr0', r1', hr1', rn, hrn, c0', hc0', c1',
    hc1', cn, hcn, _, a7, _, a8, _, a9, _, a10, _⟩ := h
  rw [hr0] at hr0'; rw [hr1] at hr1'; rw [hc0] at hc0'; rw [hc1] at hc1'
  obtain rfl := Except.ok.inj hr0'; obtain rfl := Except.ok.inj hr1'
  obtain rfl := Except.ok.inj hc0'; obtain rfl := Except.ok.inj hc1'
  obtain ⟨x, y, z, rfl⟩ := List.length_eq_three.mp a5
  obtain ⟨u, v, w, rfl⟩ := List.length_eq_three.mp a6
  obtain rfl : x = r0 := Except.ok.inj hr0
  obtain rfl : y = r1 := Except.ok.inj hr1
  obtain rfl : z = rn := Except.ok.inj hrn
  obtain rfl : u = c0 := Except.ok.inj hc0
  obtain rfl : v = c1 := Except.ok.inj hc1
  obtain rfl : w = cn := Except.ok.inj hcn
  exact ⟨x, y, z, u, v, w, ⟨rfl, a7, by omega, a8⟩, ⟨rfl, a9, by omega, a10⟩⟩

end ParMat

theorem Csr.coef_of_no_data [AddMonoid R] {A : Csr R} (h : A.data = []) (i j : Int) : A.coef i j = 0 := by
  have : A.row i = [] := by
    unfold Csr.row
    split
    · rw [h, List.zip_nil_right]; simp
    · rfl
  rw [Csr.coef_eq, this]; rfl

theorem Reorders.coef [AddCommMonoid R] {reorder : Csr R → Csr R} (h : Reorders reorder) {A : Csr R} (hA : A.WF) (i j : Int) :
    (reorder A).coef i j = A.coef i j := by
  rw [Csr.coef_eq, Csr.coef_eq]
  exact rowCoef_perm ((h A hA).2.2.2 i) j

/-- **C74.**  `ParMatrix(comm, row_starts, col_starts, diag, offd, col_map)` with well-formed blocks: accepted exactly when both
starts are `[first, last, total]` with `0 ≤ first ≤ last ≤ total`, the blocks have the matching sizes (an empty 0×0 `offd` stands for
no off-process columns) and the column map is strictly ascending, within the global columns and outside the own range. -/
theorem C74_accepts (reorder : Csr α → Csr α) (rs cs : List Int) (diag offd : Csr α) (cm : List Int) :
    (∃ M, ParMat.new reorder rs cs diag offd cm = .ok M) ↔
      ∃ r0 r1 rn c0 c1 cn, IsStarts rs r0 r1 rn ∧ IsStarts cs c0 c1 cn ∧ diag.rows = r1 - r0 ∧ diag.cols = c1 - c0 ∧
        ((offd.rows = 0 ∧ offd.cols = 0 ∧ cm = []) ∨ (offd.rows = r1 - r0 ∧ offd.cols = (cm.length : Int))) ∧
        cm.Pairwise (· < ·) ∧ (∀ c ∈ cm, 0 ≤ c ∧ c < cn) ∧ (∀ c ∈ cm, c < c0 ∨ c1 ≤ c) := by
  have key : ∀ r0 r1 rn c0 c1 cn, 0 ≤ r0 ∧ r0 ≤ r1 ∧ r1 ≤ rn → 0 ≤ c0 ∧ c0 ≤ c1 ∧ c1 ≤ cn →
      ((∃ M, ParMat.new reorder [r0, r1, rn] [c0, c1, cn] diag offd cm = .ok M) ↔ diag.rows = r1 - r0 ∧ diag.cols = c1 - c0 ∧
        ((offd.rows = 0 ∧ offd.cols = 0 ∧ cm = []) ∨ (offd.rows = r1 - r0 ∧ offd.cols = (cm.length : Int))) ∧
        cm.Pairwise (· < ·) ∧ (∀ c ∈ cm, 0 ≤ c ∧ c < cn) ∧ (∀ c ∈ cm, c < c0 ∨ c1 ≤ c)) := by
    intro r0 r1 rn c0 c1 cn hr hc
    rw [ParMat.new_eq reorder r0 r1 rn c0 c1 cn diag offd cm hr hc]
    simp only [bind_eq_ok, cassert_ok_iff]
    have chk := fun offd' : Csr α => ParMat.checks_ok (⟨r1 - r0, c1 - c0, [r0, r1, rn], [c0, c1, cn], diag, offd', cm⟩ : ParMat α) rfl
    simp only at chk
    obtain ⟨Z, hZ, _, z2, z3, _⟩ := Csr.wf_zero (α := α) (r := r1 - r0) (by omega)
    by_cases hz : offd.rows = 0 ∧ offd.cols = 0
    · rw [if_pos hz, hZ]
      constructor
      · rintro ⟨M, o, ho, _, h1, _, h2, _, h3, _, h4, _, h5, _⟩
        obtain rfl := Except.ok.inj ho
        exact ⟨h1, h2, Or.inl ⟨hz.1, hz.2, List.length_eq_zero_iff.mp (by omega)⟩, (chk _).mp h5⟩
      · rintro ⟨h1, h2, h3, h4⟩
        have h0 : (cm.length : Int) = 0 := by
          rcases h3 with ⟨_, _, h⟩ | ⟨_, h⟩
          · simp [h]
          · omega
        exact ⟨_, Z, rfl, (), h1, (), h2, (), z2, (), by omega, (), (chk _).mpr h4, rfl⟩
    · rw [if_neg hz]
      constructor
      · rintro ⟨M, o, ho, _, h1, _, h2, _, h3, _, h4, _, h5, _⟩
        obtain rfl := Except.ok.inj ho
        exact ⟨h1, h2, Or.inr ⟨h3, h4⟩, (chk _).mp h5⟩
      · rintro ⟨h1, h2, h3, h4⟩
        rcases h3 with ⟨a, b, _⟩ | ⟨a, b⟩
        · exact absurd ⟨a, b⟩ hz
        · exact ⟨_, offd, rfl, (), h1, (), h2, (), a, (), b, (), (chk _).mpr h4, rfl⟩
  constructor
  · rintro ⟨M, h⟩
    obtain ⟨r0, r1, rn, c0, c1, cn, hr, hc⟩ := ParMat.new_starts h
    refine ⟨r0, r1, rn, c0, c1, cn, hr, hc, ?_⟩
    rw [hr.eq, hc.eq] at h
    exact (key r0 r1 rn c0 c1 cn ⟨hr.first_nonneg, hr.le, hr.last_le⟩ ⟨hc.first_nonneg, hc.le, hc.last_le⟩).mp ⟨M, h⟩
  · rintro ⟨r0, r1, rn, c0, c1, cn, hr, hc, h⟩
    rw [hr.eq, hc.eq]
    exact (key r0 r1 rn c0 c1 cn ⟨hr.first_nonneg, hr.le, hr.last_le⟩ ⟨hc.first_nonneg, hc.le, hc.last_le⟩).mpr h

/-- **C74.**  An accepted share is well formed and represents what was passed: the diagonal block on the own columns, the other block
at the global columns of the map. -/
theorem C74_result [AddCommMonoid R] (reorder : Csr R → Csr R) (hre : Reorders reorder) (rs cs : List Int) (diag offd : Csr R)
    (hd : diag.WF) (ho : offd.WF) (cm : List Int) (M : ParMat R) (h : ParMat.new reorder rs cs diag offd cm = .ok M) :
    ∃ r0 r1 rn c0 c1 cn, M.WF r0 r1 rn c0 c1 cn ∧ M.rowStarts = rs ∧ M.colStarts = cs ∧ M.colMap = cm ∧
      ∀ i c, M.coef i c = (if c0 ≤ c ∧ c < c1 then diag.coef i (c - c0) else 0)
        + ∑ k ∈ Finset.Ico (0 : Int) cm.length, if vecAt cm k = c then offd.coef i k else 0 := by
  obtain ⟨r0, r1, rn, c0, c1, cn, hr, hc, h1, h2, h3, h4, h5, h6⟩ := (C74_accepts reorder rs cs diag offd cm).mp ⟨M, h⟩
  have hd' := hre diag hd
  refine ⟨r0, r1, rn, c0, c1, cn, ?_⟩
  obtain ⟨hre', hr0, hr1, hr2⟩ := hr
  obtain ⟨hce', hc0, hc1, hc2⟩ := hc
  subst hre' hce'
  rw [ParMat.new_eq reorder r0 r1 rn c0 c1 cn diag offd cm ⟨hr0, hr1, hr2⟩ ⟨hc0, hc1, hc2⟩] at h
  simp only [bind_eq_ok, cassert_ok_iff] at h
  obtain ⟨o, ho', _, k1, _, k2, _, k3, _, k4, _, k5, h⟩ := h
  obtain rfl := Except.ok.inj h
  have hoo : o.WF ∧ ∀ i k, o.coef i k = offd.coef i k := by
    by_cases hz : offd.rows = 0 ∧ offd.cols = 0
    · rw [if_pos hz] at ho'
      obtain ⟨Z, hZ, z1, _, _, z4⟩ := Csr.wf_zero (α := R) (r := r1 - r0) (by omega)
      rw [hZ] at ho'
      obtain rfl := Except.ok.inj ho'
      refine ⟨z1, fun i k => ?_⟩
      rw [Csr.coef_of_no_data z4, Csr.coef_of_no_data (by rw [Csr.eq_of_empty ho hz.1 hz.2])]
    · rw [if_neg hz] at ho'
      obtain rfl := Except.ok.inj ho'
      exact ⟨ho, fun _ _ => rfl⟩
  refine ⟨⟨⟨rfl, hr0, hr1, hr2⟩, ⟨rfl, hc0, hc1, hc2⟩, rfl, rfl, hd'.1, hoo.1, by rw [hd'.2.1]; exact k1, by rw [hd'.2.2.1]; exact k2, k3, k4,
    h4, h5, h6⟩, rfl, rfl, rfl, fun i c => ?_⟩
  unfold ParMat.coef
  have v0 : vecAt [c0, c1, cn] 0 = c0 := rfl
  have v1 : vecAt [c0, c1, cn] 1 = c1 := rfl
  simp only [v0, v1, hre.coef hd, hoo.2]

/-- C64, C74: a map with two columns is sorted together with the entries; the constructor takes the sorted one and refuses the
unsorted one. -/
example : Par.sortColumnMap (fun lt l => l.insertionSort (fun a b => lt a b || !lt b a)) [7, 5]
      (⟨2, 2, true, [(0, 0, 4), (1, 1, 3), (1, 0, 2)]⟩ : Coo Int) = .ok ([5, 7], ⟨2, 2, true, [(0, 1, 4), (1, 0, 3), (1, 1, 2)]⟩) ∧
    (ParMat.new id [0, 1, 8] [0, 1, 8] (⟨1, 1, [0, 1], [0], [9]⟩ : Csr Int) ⟨1, 2, [0, 2], [0, 1], [3, 2]⟩ [5, 7]).isOk = true ∧
    ParMat.new id [0, 1, 8] [0, 1, 8] (⟨1, 1, [0, 1], [0], [9]⟩ : Csr Int) ⟨1, 2, [0, 2], [0, 1], [3, 2]⟩ [7, 5]
      = .error .assertFail := by decide +kernel

end Linalg
