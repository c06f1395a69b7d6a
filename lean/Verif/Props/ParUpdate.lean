import Verif.Props.ParProd

/-!
# Updates of a distributed matrix in place (C88)
-/

namespace Linalg
open Cpp

variable {α R : Type}

namespace Par

/-- New blocks of the same shape make a well-formed share. -/
theorem wf_update {M : ParMat α} {r0 r1 rn c0 c1 cn : Int} (h : M.WF r0 r1 rn c0 c1 cn) {D O : Csr α} (hD : D.WF) (hO : O.WF)
    (hdr : D.rows = M.diag.rows) (hdc : D.cols = M.diag.cols) (hor : O.rows = M.offd.rows) (hoc : O.cols = M.offd.cols) :
    ({ M with diag := D, offd := O } : ParMat α).WF r0 r1 rn c0 c1 cn :=
  ⟨h.row_starts, h.col_starts, h.rows_eq, h.cols_eq, hD, hO, hdr.trans h.diag_rows, hdc.trans h.diag_cols, hor.trans h.offd_rows,
    hoc.trans h.offd_cols, h.map_sorted, h.map_range, h.map_other⟩

theorem coef_update [AddCommMonoid R] (M : ParMat R) (D O : Csr R) (i : Int) (H : R →+ R) (hD : ∀ j, D.coef i j = H (M.diag.coef i j))
    (hO : ∀ j, O.coef i j = H (M.offd.coef i j)) (c : Int) :
    ({ M with diag := D, offd := O } : ParMat R).coef i c = H (M.coef i c) := by
  unfold ParMat.coef
  dsimp only
  rw [map_add, map_sum]
  congr 1
  · split
    · exact hD _
    · exact (map_zero H).symm
  · apply Finset.sum_congr rfl
    intro k _
    split
    · exact hO _
    · exact (map_zero H).symm

/-- Shares that are updated one by one make a distributed matrix. -/
theorem dist_update {Ms Ns : List (ParMat α)} {ro co : List Int} (h : IsDist Ms ro co) (hl : Ns.length = Ms.length)
    (hs : ∀ (p : Nat) (hp : p < Ms.length), (Ns[p]'(by omega)).WF (vecAt ro p) (vecAt ro (p + 1)) (vecAt ro Ms.length)
      (vecAt co p) (vecAt co (p + 1)) (vecAt co Ms.length)) : IsDist Ns ro co := by
  refine ⟨by rw [hl]; exact h.rows_len, by rw [hl]; exact h.cols_len, h.rows_first, h.cols_first, h.rows_mono, h.cols_mono, ?_⟩
  intro p hp
  have e : ∀ l : List Int, vecAt l Ns.length = vecAt l Ms.length := fun l => by rw [hl]
  rw [e, e]
  exact hs p (by omega)

/-- A global row outside the matrix is zero. -/
theorem globalCoef_of_not_row [AddCommMonoid R] {Ms : List (ParMat R)} {ro co : List Int} (h : IsDist Ms ro co) {g : Int}
    (hg : ¬ (0 ≤ g ∧ g < vecAt ro Ms.length)) (c : Int) : globalCoef Ms g c = 0 := by
  unfold globalCoef
  apply List.sum_eq_zero
  intro x hx
  obtain ⟨M, hM, rfl⟩ := List.mem_map.mp hx
  obtain ⟨p, hp, rfl⟩ := List.getElem_of_mem hM
  have w := h.share p hp
  have a := w.row_starts.first_nonneg
  have b := w.row_starts.last_le
  have e : vecAt Ms[p].rowStarts 0 = vecAt ro p := by rw [w.row_starts.eq]; rfl
  rw [e]
  exact coef_of_not_row w (by omega) c

end Par

/-- **C88.**  `A *= s` on all processes multiplies the matrix by `s`. -/
theorem C88_scale [NonUnitalNonAssocSemiring R] (Ms : List (ParMat R)) (ro co : List Int) (hM : Par.IsDist Ms ro co) (s : R) :
    Par.IsDist (Ms.map (fun M => M.scale s)) ro co ∧
      ∀ g c, Par.globalCoef (Ms.map (fun M => M.scale s)) g c = Par.globalCoef Ms g c * s := by
  constructor
  · refine Par.dist_update hM (by simp) ?_
    intro p hp
    have w := hM.share p hp
    have d := C15_scale Ms[p].diag w.diag_wf s
    have o := C15_scale Ms[p].offd w.offd_wf s
    rw [List.getElem_map]
    exact Par.wf_update w d.1 o.1 d.2.rows_eq d.2.cols_eq o.2.rows_eq o.2.cols_eq
  · intro g c
    unfold Par.globalCoef
    rw [List.map_map, ← List.sum_map_mul_right]
    congr 1
    apply List.map_congr_left
    intro M hM'
    obtain ⟨p, hp, rfl⟩ := List.getElem_of_mem hM'
    have w := hM.share p hp
    exact Par.coef_update Ms[p] _ _ _ (AddMonoidHom.mulRight s) (fun j => C15_scale_coef _ w.diag_wf s _ j)
      (fun j => C15_scale_coef _ w.offd_wf s _ j) c

/-- **C88.**  `-A` on all processes is the negated matrix, distributed in the same way. -/
theorem C88_neg [Ring R] (reorder : Csr R → Csr R) (hre : Reorders reorder) (Ms : List (ParMat R)) (ro co : List Int)
    (hM : Par.IsDist Ms ro co) :
    Par.IsDist (Ms.map (fun M => M.neg reorder)) ro co ∧
      ∀ g c, Par.globalCoef (Ms.map (fun M => M.neg reorder)) g c = - Par.globalCoef Ms g c := by
  have hco : ∀ M ∈ Ms, ∀ i j, (reorder M.diag).coef i j = M.diag.coef i j := by
    intro M hm i j
    obtain ⟨p, hp, rfl⟩ := List.getElem_of_mem hm
    have := (hre _ (hM.share p hp).diag_wf).2.2.2 i
    rw [Csr.coef_eq, Csr.coef_eq]
    unfold rowCoef
    exact ((this.filter _).map _).sum_eq
  have h1 : Par.IsDist (Ms.map (fun M => ({ M with diag := reorder M.diag } : ParMat R))) ro co := by
    refine Par.dist_update hM (by simp) ?_
    intro p hp
    have w := hM.share p hp
    obtain ⟨r1, r2, r3, -⟩ := hre _ w.diag_wf
    rw [List.getElem_map]
    exact Par.wf_update w r1 w.offd_wf r2 r3 rfl rfl
  have e : Ms.map (fun M => M.neg reorder) = (Ms.map (fun M => ({ M with diag := reorder M.diag } : ParMat R))).map (fun M => M.scale (-1)) := by
    rw [List.map_map]
    rfl
  obtain ⟨s1, s2⟩ := C88_scale _ ro co h1 (-1)
  rw [e]
  refine ⟨s1, fun g c => ?_⟩
  rw [s2, mul_neg, mul_one]
  congr 1
  unfold Par.globalCoef
  rw [List.map_map]
  congr 1
  apply List.map_congr_left
  intro M hm
  exact Par.coef_update M _ _ _ (AddMonoidHom.id R) (fun j => hco M hm _ j) (fun _ => rfl) c

/-- **C88.**  `ScaleRows(d)` on all processes, with the values distributed like the rows: row `g` is multiplied by element `g`. -/
theorem C88_scaleRows [NonUnitalNonAssocSemiring R] (Ms : List (ParMat R)) (ro co : List Int) (hM : Par.IsDist Ms ro co)
    (ds : List (List R)) (hl : ds.length = Ms.length) (hd : Par.IsShares ds ro) :
    ∃ Ns, (Ms.zip ds).mapM (fun p => p.1.scaleRows p.2) = .ok Ns ∧ Ns.length = Ms.length ∧ Par.IsDist Ns ro co ∧
      ∀ g c, 0 ≤ g → g < vecAt ro Ms.length → Par.globalCoef Ns g c = Par.globalCoef Ms g c * Par.globalVec ds g := by
  obtain ⟨Ns, n1, n2, n3⟩ := Par.mapM_exists (Ms.zip ds) (fun p => p.1.scaleRows p.2)
    (fun p N => ∀ (hp : p < Ms.length), N.WF (vecAt ro p) (vecAt ro (p + 1)) (vecAt ro Ms.length) (vecAt co p) (vecAt co (p + 1))
      (vecAt co Ms.length) ∧ ∀ i c, N.coef i c = Ms[p].coef i c * vecAt (ds[p]'(by omega)) i) (by
    intro p hp
    have hp' : p < Ms.length := by rw [List.length_zip] at hp; omega
    rw [List.getElem_zip]
    have w := hM.share p hp'
    have hs := hd.share p (by omega)
    obtain ⟨D, d1, d2, d3⟩ := C12_scaleRows Ms[p].diag w.diag_wf (ds[p]'(by omega)) (by rw [w.diag_rows]; exact hs)
    obtain ⟨O, o1, o2, o3⟩ := C12_scaleRows Ms[p].offd w.offd_wf (ds[p]'(by omega)) (by rw [w.offd_rows]; exact hs)
    refine ⟨{ Ms[p] with diag := D, offd := O }, ?_, fun _ => ⟨Par.wf_update w d2 o2 d3.rows_eq d3.cols_eq o3.rows_eq o3.cols_eq, ?_⟩⟩
    · unfold ParMat.scaleRows
      dsimp only
      rw [d1, ok_bind, o1, ok_bind]
    · intro i c
      exact Par.coef_update Ms[p] D O i (AddMonoidHom.mulRight (vecAt (ds[p]'(by omega)) i))
        (fun j => d3.coef i j (AddMonoidHom.mulRight _) (fun _ _ => rfl)) (fun j => o3.coef i j (AddMonoidHom.mulRight _) (fun _ _ => rfl)) c)
  have hNl : Ns.length = Ms.length := by rw [n2, List.length_zip]; omega
  have hDist : Par.IsDist Ns ro co := Par.dist_update hM hNl (fun p hp => (n3 p (by rw [List.length_zip]; omega) hp).1)
  refine ⟨Ns, n1, hNl, hDist, ?_⟩
  intro g c g0 g1
  obtain ⟨p, hp, h1, h2⟩ := Par.exists_owner hM.rows_len hM.rows_first g0 g1
  have e : g = vecAt ro p + (g - vecAt ro p) := by omega
  have hs := hd.share p (by omega)
  rw [e, Par.globalCoef_owner hDist p (by omega) (by omega) (by omega), Par.globalCoef_owner hM p hp (by omega) (by omega),
    hd.globalVec p (by omega) (by omega) (by omega)]
  exact (n3 p (by rw [List.length_zip]; omega) hp).2 _ c

/-- **C88.**  `InverseScaleRows(d)` on all processes, with no zero in `d`: row `g` is divided by element `g`. -/
theorem C88_inverseScaleRows [DivisionRing R] [DecidableEq R] (Ms : List (ParMat R)) (ro co : List Int) (hM : Par.IsDist Ms ro co)
    (ds : List (List R)) (hl : ds.length = Ms.length) (hd : Par.IsShares ds ro) (hnz : ∀ d ∈ ds, ∀ x ∈ d, x ≠ 0) :
    ∃ Ns, (Ms.zip ds).mapM (fun p => p.1.inverseScaleRows p.2) = .ok Ns ∧ Ns.length = Ms.length ∧ Par.IsDist Ns ro co ∧
      ∀ g c, 0 ≤ g → g < vecAt ro Ms.length → Par.globalCoef Ns g c = Par.globalCoef Ms g c / Par.globalVec ds g := by
  obtain ⟨Ns, n1, n2, n3⟩ := Par.mapM_exists (Ms.zip ds) (fun p => p.1.inverseScaleRows p.2)
    (fun p N => ∀ (hp : p < Ms.length), N.WF (vecAt ro p) (vecAt ro (p + 1)) (vecAt ro Ms.length) (vecAt co p) (vecAt co (p + 1))
      (vecAt co Ms.length) ∧ ∀ i c, N.coef i c = Ms[p].coef i c / vecAt (ds[p]'(by omega)) i) (by
    intro p hp
    have hp' : p < Ms.length := by rw [List.length_zip] at hp; omega
    rw [List.getElem_zip]
    have w := hM.share p hp'
    have hs := hd.share p (by omega)
    have hz := hnz (ds[p]'(by omega)) (List.getElem_mem _)
    obtain ⟨D, d1, d2, d3⟩ := C12_inverseScaleRows Ms[p].diag w.diag_wf (ds[p]'(by omega)) (by rw [w.diag_rows]; exact hs) hz
    obtain ⟨O, o1, o2, o3⟩ := C12_inverseScaleRows Ms[p].offd w.offd_wf (ds[p]'(by omega)) (by rw [w.offd_rows]; exact hs) hz
    refine ⟨{ Ms[p] with diag := D, offd := O }, ?_, fun _ => ⟨Par.wf_update w d2 o2 d3.rows_eq d3.cols_eq o3.rows_eq o3.cols_eq, ?_⟩⟩
    · unfold ParMat.inverseScaleRows
      dsimp only
      rw [d1, ok_bind, o1, ok_bind]
    · intro i c
      have := Par.coef_update Ms[p] D O i (AddMonoidHom.mulRight (vecAt (ds[p]'(by omega)) i)⁻¹)
        (fun j => d3.coef i j (AddMonoidHom.mulRight _) (fun v _ => by simp [div_eq_mul_inv]))
        (fun j => o3.coef i j (AddMonoidHom.mulRight _) (fun v _ => by simp [div_eq_mul_inv])) c
      rw [this, div_eq_mul_inv]
      rfl)
  have hNl : Ns.length = Ms.length := by rw [n2, List.length_zip]; omega
  have hDist : Par.IsDist Ns ro co := Par.dist_update hM hNl (fun p hp => (n3 p (by rw [List.length_zip]; omega) hp).1)
  refine ⟨Ns, n1, hNl, hDist, ?_⟩
  intro g c g0 g1
  obtain ⟨p, hp, h1, h2⟩ := Par.exists_owner hM.rows_len hM.rows_first g0 g1
  have e : g = vecAt ro p + (g - vecAt ro p) := by omega
  have hs := hd.share p (by omega)
  rw [e, Par.globalCoef_owner hDist p (by omega) (by omega) (by omega), Par.globalCoef_owner hM p hp (by omega) (by omega),
    hd.globalVec p (by omega) (by omega) (by omega)]
  exact (n3 p (by rw [List.length_zip]; omega) hp).2 _ c

/-- **C88.**  The overloads taking a matrix use its stored values. -/
theorem C88_scale_by_matrix [Zero R] [Mul R] [Div R] [DecidableEq R] (M : ParMat R) (D : Csr R) :
    M.scaleRowsMat D = M.scaleRows D.data ∧ M.inverseScaleRowsMat D = M.inverseScaleRows D.data := ⟨rfl, rfl⟩

/-- **C88.**  `EliminateRow(i)` on one process zeroes its local row `i`, own and other columns, and nothing else; an index outside the
local rows is rejected. -/
theorem C88_eliminateRow [AddCommMonoid R] (M : ParMat R) (r0 r1 rn c0 c1 cn : Int) (h : M.WF r0 r1 rn c0 c1 cn) (index : Int) :
    (0 ≤ index → index < r1 - r0 → ∃ N, M.eliminateRow index = .ok N ∧ N.WF r0 r1 rn c0 c1 cn ∧
      ∀ i c, N.coef i c = if i = index then 0 else M.coef i c) ∧
    (¬ (0 ≤ index ∧ index < r1 - r0) → M.eliminateRow index = .error .assertFail) := by
  constructor
  · intro h0 h1
    obtain ⟨D, d1, d2, d3⟩ := C09_eliminateRow M.diag h.diag_wf index h0 (by rw [h.diag_rows]; exact h1)
    obtain ⟨O, o1, o2, o3⟩ := C09_eliminateRow M.offd h.offd_wf index h0 (by rw [h.offd_rows]; exact h1)
    refine ⟨{ M with diag := D, offd := O }, ?_, Par.wf_update h d2 o2 d3.rows_eq d3.cols_eq o3.rows_eq o3.cols_eq, ?_⟩
    · unfold ParMat.eliminateRow
      rw [d1, ok_bind, o1, ok_bind]
    · intro i c
      by_cases e : i = index
      · rw [if_pos e]
        exact Par.coef_update M D O i (0 : R →+ R) (fun j => d3.coef i j 0 (fun v _ => by simp [e]))
          (fun j => o3.coef i j 0 (fun v _ => by simp [e])) c
      · rw [if_neg e]
        exact Par.coef_update M D O i (AddMonoidHom.id R) (fun j => d3.coef i j _ (fun v _ => by simp [e]))
          (fun j => o3.coef i j _ (fun v _ => by simp [e])) c
  · intro hn
    unfold ParMat.eliminateRow Csr.eliminateRow
    by_cases h0 : index ≥ 0
    · rw [cassert_true h0, ok_bind, cassert_false (by rw [h.diag_rows]; omega)]
      rfl
    · rw [cassert_false h0]
      rfl

/-- **C88.**  `AddDiag(d)` on one process with as many rows as columns adds `d[i]`, for every time the position is stored, to the
coefficient in local row `i` and the own column with the same local number, and nothing else. -/
theorem C88_addDiag [AddCommMonoid R] (M : ParMat R) (r0 r1 rn c0 c1 cn : Int) (h : M.WF r0 r1 rn c0 c1 cn) (hsq : r1 - r0 = c1 - c0)
    (d : List R) (hd : r1 - r0 ≤ d.length) :
    ∃ N, M.addDiag d = .ok N ∧ N.WF r0 r1 rn c0 c1 cn ∧
      ∀ i c, 0 ≤ i → i < r1 - r0 →
        N.coef i c = M.coef i c + if c = c0 + i then ((M.diag.row i).map Prod.fst).count i • vecAt d i else 0 := by
  have hsq' : M.diag.rows = M.diag.cols := by rw [h.diag_rows, h.diag_cols, hsq]
  obtain ⟨D, d1, d2, d3⟩ := C10_addDiag M.diag h.diag_wf hsq' d (by rw [h.diag_rows]; exact hd)
  obtain ⟨D', e1, e2, e3, -⟩ := C10_addDiag_coef_partial M.diag h.diag_wf hsq' d (by rw [h.diag_rows]; exact hd)
  rw [d1] at e1
  injection e1 with e1
  subst e1
  refine ⟨{ M with diag := D }, ?_, Par.wf_update h d2 h.offd_wf d3.rows_eq d3.cols_eq rfl rfl, ?_⟩
  · unfold ParMat.addDiag
    rw [d1, ok_bind]
  · intro i c h0 h1
    unfold ParMat.coef
    dsimp only
    have v0 : vecAt M.colStarts 0 = c0 := by rw [h.col_starts.eq]; rfl
    have v1 : vecAt M.colStarts 1 = c1 := by rw [h.col_starts.eq]; rfl
    rw [v0, v1]
    by_cases hc : c = c0 + i
    · rw [if_pos (by omega), if_pos (by omega), if_pos hc, hc, show c0 + i - c0 = i by omega, e3 i, add_right_comm]
    · rw [if_neg hc, add_zero]
      congr 1
      split
      · rw [e2 i (c - c0) (by omega)]
      · rfl

/-- **C88.**  `AddDiag(s)` with a number is `AddDiag` with that number in every row. -/
theorem C88_addDiagVal [AddCommMonoid R] (M : ParMat R) (r0 r1 rn c0 c1 cn : Int) (h : M.WF r0 r1 rn c0 c1 cn) (hsq : r1 - r0 = c1 - c0)
    (s : R) : M.addDiagVal s = M.addDiag (List.replicate (r1 - r0).toNat s) := by
  have hsq' : M.diag.rows = M.diag.cols := by rw [h.diag_rows, h.diag_cols, hsq]
  have hle := h.row_starts.le
  unfold ParMat.addDiagVal ParMat.addDiag Csr.addDiagVal Csr.addDiag
  congr 2
  funext _
  congr 1
  apply forUp_congr
  intro i data h0 h1
  rw [h.diag_rows] at h1
  congr 1
  funext j data
  have : rd (List.replicate (r1 - r0).toNat s) i = .ok s := by
    rw [rd_int h0 (by rw [List.length_replicate]; omega), List.getElem_replicate]
  rw [this]
  rfl

/-- **C88.**  `AddDiag` is rejected on a process whose numbers of rows and columns differ. -/
theorem C88_addDiag_rejects [Add R] (M : ParMat R) (h : M.diag.rows ≠ M.diag.cols) (d : List R) (s : R) :
    M.addDiag d = .error .assertFail ∧ M.addDiagVal s = .error .assertFail := by
  unfold ParMat.addDiag ParMat.addDiagVal Csr.addDiag Csr.addDiagVal
  rw [cassert_false h]
  exact ⟨rfl, rfl⟩

/-- **C88.**  `A = s` sets every stored value, own and other columns, to `s`; it rejects 0. -/
theorem C88_fill [Zero R] [DecidableEq R] (M : ParMat R) (r0 r1 rn c0 c1 cn : Int) (h : M.WF r0 r1 rn c0 c1 cn) (s : R) :
    (s = 0 → M.fillVal s = .error .assertFail) ∧
    (s ≠ 0 → ∃ N, M.fillVal s = .ok N ∧ N.WF r0 r1 rn c0 c1 cn ∧ M.diag.UpdatedBy N.diag (fun _ _ _ => s) ∧
      M.offd.UpdatedBy N.offd (fun _ _ _ => s) ∧ N.colMap = M.colMap) := by
  constructor
  · intro e
    unfold ParMat.fillVal
    rw [(C15_fill M.diag h.diag_wf s).1 e]
    rfl
  · intro e
    obtain ⟨D, d1, d2, d3⟩ := (C15_fill M.diag h.diag_wf s).2 e
    obtain ⟨O, o1, o2, o3⟩ := (C15_fill M.offd h.offd_wf s).2 e
    refine ⟨{ M with diag := D, offd := O }, ?_, Par.wf_update h d2 o2 d3.rows_eq d3.cols_eq o3.rows_eq o3.cols_eq, d3, o3, rfl⟩
    unfold ParMat.fillVal
    rw [d1, ok_bind, o1, ok_bind]

/-- **C88.**  `MaxNorm()` returns on every process the largest, over all blocks of all processes, of the sums of absolute values. -/
theorem C88_maxNorm [LinearOrder R] [AddGroup R] (Ms : List (ParMat R)) (hne : Ms ≠ []) :
    ∃ m, Par.maxNorm Ms = List.replicate Ms.length m ∧ (∀ M ∈ Ms, M.diag.maxNorm ≤ m ∧ M.offd.maxNorm ≤ m) ∧
      ∃ M ∈ Ms, m = M.diag.maxNorm ∨ m = M.offd.maxNorm := by
  obtain ⟨M0, Ms', rfl⟩ := List.exists_cons_of_ne_nil hne
  have key : ∀ (l : List R) (v : R), l.foldl (fun a b => Max.max a b) v ∈ v :: l ∧ ∀ x ∈ v :: l, x ≤ l.foldl (fun a b => Max.max a b) v := by
    intro l
    induction l with
    | nil => intro v; simp
    | cons a l ih =>
      intro v
      obtain ⟨i1, i2⟩ := ih (Max.max v a)
      rw [List.foldl_cons]
      constructor
      · rcases List.mem_cons.mp i1 with e | e
        · rw [e]
          rcases max_choice v a with f | f <;> rw [f] <;> simp
        · simp [e]
      · intro x hx
        rcases List.mem_cons.mp hx with rfl | hx
        · exact le_trans (le_max_left _ a) (i2 (Max.max _ a) (by simp))
        · rcases List.mem_cons.mp hx with rfl | hx
          · exact le_trans (le_max_right v _) (i2 (Max.max v _) (by simp))
          · exact i2 x (by simp [hx])
  generalize hl : (M0 :: Ms').map (fun M => Max.max M.diag.maxNorm M.offd.maxNorm) = l
  obtain ⟨k1, k2⟩ := key (Ms'.map (fun M => Max.max M.diag.maxNorm M.offd.maxNorm)) (Max.max M0.diag.maxNorm M0.offd.maxNorm)
  rw [← List.map_cons (f := fun M : ParMat R => Max.max M.diag.maxNorm M.offd.maxNorm)] at k1 k2
  refine ⟨(Ms'.map (fun M => Max.max M.diag.maxNorm M.offd.maxNorm)).foldl (fun a b => Max.max a b) (Max.max M0.diag.maxNorm M0.offd.maxNorm),
    ?_, ?_, ?_⟩
  · unfold Par.maxNorm
    rw [List.map_cons]
    unfold mpiAllreduceMax
    dsimp only
    rw [List.map_const']
    simp
  · intro M hM
    have := k2 _ (List.mem_map.mpr ⟨M, hM, rfl⟩)
    exact ⟨le_trans (le_max_left _ _) this, le_trans (le_max_right _ _) this⟩
  · obtain ⟨M, hM, e⟩ := List.mem_map.mp k1
    refine ⟨M, hM, ?_⟩
    rw [← e]
    rcases max_choice M.diag.maxNorm M.offd.maxNorm with f | f <;> rw [f] <;> simp

/-- `[[1, 2], [4, 3]]` on two processes. -/
example : Par.IsDist Par.exA [0, 1, 2] [0, 1, 2] ∧
    ((Par.exA.zip [[10], [100]]).mapM (fun p : ParMat Int × List Int => p.1.scaleRows p.2)).map (fun Ns : List (ParMat Int) => (Par.globalCoef Ns 0 1, Par.globalCoef Ns 1 0))
      = .ok (20, 400) ∧
    (Par.exA.mapM (fun M : ParMat Int => M.addDiagVal 7)).map (fun Ns : List (ParMat Int) => (Par.globalCoef Ns 0 0, Par.globalCoef Ns 0 1, Par.globalCoef Ns 1 1))
      = .ok (8, 2, 10) ∧
    (Par.exA.mapM (fun M : ParMat Int => M.eliminateRow 0)).map (fun Ns : List (ParMat Int) => (Par.globalCoef Ns 0 0, Par.globalCoef Ns 0 1, Par.globalCoef Ns 1 0))
      = .ok (0, 0, 0) ∧
    Par.maxNorm Par.exA = [4, 4] ∧ Par.globalCoef (Par.exA.map (fun M => M.neg id)) 1 0 = -4 :=
  ⟨Par.exDist.1, by decide +kernel, by decide +kernel, by decide +kernel, by decide +kernel, by decide +kernel⟩

end Linalg
