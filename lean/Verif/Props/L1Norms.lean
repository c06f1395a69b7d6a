import Verif.Spec.L1Norms
import Verif.Props.ParUpdate
import Verif.Proof.Block
import Mathlib.Algebra.Order.Field.Basic
import Mathlib.Algebra.Order.BigOperators.Ring.Finset
import Mathlib.Data.Rat.Lemmas
import Mathlib.Algebra.Order.Ring.Rat
import Mathlib.Tactic.Linarith

/-!
# The row norms of the l1 smoothers (C89)
-/

namespace Linalg
open Cpp

variable {α R : Type}

namespace Par

theorem addRow_ok [AddCommMonoid R] {A : Csr R} (h : A.WF) {i : Int} (i0 : 0 ≤ i) (i1 : i < A.rows) (f : R → R) (s : R) :
    addRow A i f s = .ok (s + A.rowSum i f) := by
  unfold addRow Csr.rowSum
  obtain ⟨n, rs, hn, hrs, rfl⟩ := h.exists_rows
  obtain ⟨k, rfl⟩ := Int.eq_ofNat_of_zero_le i0
  have hk : k < rs.length := by simpa [Csr.ofRows] using i1
  rw [Csr.row_ofRows n rs k hk]
  rw [Csr.forRow_ofRows n rs k hk s _ (fun e s => .ok (s + f e.2)) (fun m hm s => by rw [rd_data_ofRows n rs k m hk hm, ok_bind])]
  generalize rs[k] = r
  clear hk i0 i1 hrs
  induction r generalizing s with
  | nil => simp [pure, Except.pure]
  | cons e r ih =>
    rw [List.foldlM_cons]
    change List.foldlM (fun s (e : Int × R) => Except.ok (s + f e.2)) (s + f e.2) r = _
    rw [ih, List.map_cons, List.sum_cons, add_assoc]

theorem firstVal_ok [Zero R] {A : Csr R} (h : A.WF) {i : Int} (i0 : 0 ≤ i) (i1 : i < A.rows) (hne : A.row i ≠ []) :
    firstVal A i = .ok (A.rowFirst i) := by
  obtain ⟨n, rs, hn, hrs, rfl⟩ := h.exists_rows
  obtain ⟨k, rfl⟩ := Int.eq_ofNat_of_zero_le i0
  have hk : k < rs.length := by simpa [Csr.ofRows] using i1
  rw [Csr.row_ofRows n rs k hk] at hne
  unfold firstVal Csr.rowFirst
  rw [Csr.row_ofRows n rs k hk]
  have e1 : rd (Csr.ofRows n rs).indptr (k : Int) = _ := rd_ptrs rs k hk.le
  rw [e1, ok_bind]
  have hl : 0 < rs[k].length := List.length_pos_iff.mpr hne
  have := rd_data_ofRows n rs k 0 hk hl
  rw [Nat.add_zero] at this
  rw [this]
  generalize rs[k] = r at hl
  match r, hl with
  | e :: r, _ => rfl

theorem addOffd_ok [AddCommMonoid R] {M : ParMat R} {r0 r1 rn c0 c1 cn : Int} (h : M.WF r0 r1 rn c0 c1 cn) {i : Int} (i0 : 0 ≤ i)
    (i1 : i < r1 - r0) (f : R → R) (s : R) : addOffd M i f s = .ok (s + M.offd.rowSum i f) := by
  unfold addOffd
  by_cases hc : M.offd.cols = 0
  · rw [if_neg (not_not.mpr hc)]
    have hr : M.offd.row i = [] := by
      have hw := h.offd_wf
      by_contra hne
      obtain ⟨e, he⟩ := List.exists_mem_of_ne_nil _ hne
      have := Csr.mem_row_ok hw he
      omega
    unfold Csr.rowSum
    rw [hr]
    simp
  · rw [if_pos hc, addRow_ok h.offd_wf i0 (by rw [h.offd_rows]; exact i1)]

theorem rowSum_half [Field R] (A : Csr R) (i : Int) (f : R → R) : A.rowSum i (fun d => 1 / 2 * f d) = A.rowSum i f / 2 := by
  unfold Csr.rowSum
  rw [List.sum_map_mul_left (r := (1 : R) / 2) (f := fun e : Int × R => f e.2)]
  ring

theorem l1Row_ok [Field R] [LinearOrder R] [IsStrictOrderedRing R] {M : ParMat R} {r0 r1 rn c0 c1 cn : Int} (h : M.WF r0 r1 rn c0 c1 cn) {i : Int}
    (i0 : 0 ≤ i) (i1 : i < r1 - r0) (hne : M.diag.row i ≠ []) (option : Int) (old : R) :
    l1Row M option i old = .ok (rowNorm M option i old) := by
  have i1' : i < M.diag.rows := by rw [h.diag_rows]; exact i1
  unfold l1Row rowNorm
  by_cases e1 : option = 1
  · rw [if_pos e1, if_pos e1, addRow_ok h.diag_wf i0 i1', ok_bind, addOffd_ok h i0 i1, zero_add]
  rw [if_neg e1, if_neg e1]
  by_cases e2 : option = 2
  · rw [if_pos e2, if_pos e2, firstVal_ok h.diag_wf i0 i1' hne, ok_bind, addOffd_ok h i0 i1]
  rw [if_neg e2, if_neg e2]
  by_cases e3 : option = 3
  · rw [if_pos e3, if_pos e3, addRow_ok h.diag_wf i0 i1', ok_bind, addOffd_ok h i0 i1, zero_add]
  rw [if_neg e3, if_neg e3]
  by_cases e4 : option = 4
  · rw [if_pos e4, if_pos e4, firstVal_ok h.diag_wf i0 i1' hne, ok_bind, addOffd_ok h i0 i1, ok_bind, rowSum_half]
    generalize M.offd.rowSum i (fun d => |d|) = o
    generalize |M.diag.rowFirst i| = d
    by_cases hc : o ≤ 2 / 3 * d
    · rw [if_pos hc, if_pos (by linarith)]
    · rw [if_neg hc, if_neg (by intro hh; apply hc; linarith)]
  · rw [if_neg e4, if_neg e4]

end Par

/-! ## C89 -/

/-- The value `hypre_ParCSRComputeL1Norms` leaves for row `i`: the norm, negated where the first own value is negative. -/
def Par.signedNorm [Field R] [LinearOrder R] (M : ParMat R) (option : Int) (l1 : List R) (i : Int) : R :=
  if M.diag.rowFirst i < 0 then - Par.rowNorm M option i (vecAt l1 i) else Par.rowNorm M option i (vecAt l1 i)

/-- **C89 (partial).**  `hypre_ParCSRComputeL1Norms` on a process all of whose rows store an own column: the norms of the option, negated
in rows whose first own value is negative; the error flag is set exactly when one of them is 0.  Missing: rows without a stored own column,
see `C89_false` and `C89_wrong_sign`. -/
theorem C89_norms_partial [Field R] [LinearOrder R] [IsStrictOrderedRing R] (M : ParMat R) (r0 r1 rn c0 c1 cn : Int) (h : M.WF r0 r1 rn c0 c1 cn)
    (hne : ∀ i, 0 ≤ i → i < r1 - r0 → M.diag.row i ≠ []) (option : Int) (l1 : List R) :
    ∃ l flag, Par.l1Norms M option l1 = .ok (l, flag) ∧ VecIs l (r1 - r0) (Par.signedNorm M option l1) ∧
      (flag = true ↔ ∃ i, 0 ≤ i ∧ i < r1 - r0 ∧ Par.rowNorm M option i (vecAt l1 i) = 0) := by
  have hle := h.row_starts.le
  obtain ⟨n, hn⟩ : ∃ n : Nat, r1 - r0 = (n : Int) := Int.eq_ofNat_of_zero_le (by omega)
  have hr : resize l1 M.diag.rows.toNat 0 = vecFn n (vecAt l1) := by
    rw [h.diag_rows, hn, Int.toNat_natCast]
    unfold resize
    apply List.ext_getElem
    · simp [length_vecFn]; omega
    · intro k h1 h2
      have hk : k < n := by simpa [length_vecFn] using h2
      have e : (vecFn n (vecAt l1))[k]'h2 = vecAt l1 (k : Int) := by simp [vecFn]
      rw [e]
      by_cases hkl : k < l1.length
      · rw [vecAt_nat l1 k hkl, List.getElem_append_left (by rw [List.length_take]; omega), List.getElem_take]
      · rw [List.getElem_append_right (by rw [List.length_take]; omega), List.getElem_replicate]
        unfold vecAt
        rw [if_pos (by omega), List.getD_eq_getElem?_getD, List.getElem?_eq_none (by simp; omega)]
        rfl
  have hl1 : forUp 0 M.diag.rows (vecFn n (vecAt l1)) (fun i l1 => do
      let old ← rd l1 i
      let v ← Par.l1Row M option i old
      wr l1 i v) = .ok (vecFn n (fun i => Par.rowNorm M option i (vecAt l1 i))) := by
    rw [h.diag_rows, hn]
    apply fillLoop
    intro i y i0 i1 hy
    rw [rd_vecFn i0 i1, ok_bind, hy, Par.l1Row_ok h i0 (by omega) (hne i i0 (by omega)), ok_bind]
  have hl2 : forUp 0 M.diag.rows (vecFn n (fun i => Par.rowNorm M option i (vecAt l1 i))) (fun i l1 => do
      let d ← Par.firstVal M.diag i
      if d < 0 then
        let v ← rd l1 i
        wr l1 i (-v)
      else .ok l1) = .ok (vecFn n (Par.signedNorm M option l1)) := by
    rw [h.diag_rows, hn]
    apply fillLoop
    intro i y i0 i1 hy
    rw [Par.firstVal_ok h.diag_wf i0 (by rw [h.diag_rows]; omega) (hne i i0 (by omega)), ok_bind]
    unfold Par.signedNorm
    by_cases hs : M.diag.rowFirst i < 0
    · rw [if_pos hs, if_pos hs, rd_vecFn i0 i1, ok_bind, hy]
    · rw [if_neg hs, if_neg hs, wr_vecFn _ i0 i1]
      congr 1
      apply vecFn_congr
      intro a _ _
      by_cases ha : a = i
      · rw [if_pos ha, ha, hy]
      · rw [if_neg ha]
  refine ⟨vecFn n (Par.signedNorm M option l1), (vecFn n (Par.signedNorm M option l1)).any (fun v => |v| = 0), ?_, ?_, ?_⟩
  · unfold Par.l1Norms
    dsimp only
    rw [hr, hl1, ok_bind, hl2, ok_bind]
  · rw [hn]; exact is_vecFn n _
  · rw [List.any_eq_true]
    have hz : ∀ i, |Par.signedNorm M option l1 i| = 0 ↔ Par.rowNorm M option i (vecAt l1 i) = 0 := by
      intro i
      unfold Par.signedNorm
      rw [abs_eq_zero]
      split <;> simp
    constructor
    · rintro ⟨v, hv, h0⟩
      obtain ⟨k, hk, rfl⟩ := List.getElem_of_mem hv
      have hk' : k < n := by simpa [length_vecFn] using hk
      have e : (vecFn n (Par.signedNorm M option l1))[k]'hk = Par.signedNorm M option l1 (k : Int) := by simp [vecFn]
      rw [e] at h0
      exact ⟨k, by omega, by omega, (hz k).mp (by simpa using h0)⟩
    · rintro ⟨i, i0, i1, hi⟩
      obtain ⟨k, rfl⟩ := Int.eq_ofNat_of_zero_le i0
      have hk : k < (vecFn n (Par.signedNorm M option l1)).length := by rw [length_vecFn]; omega
      refine ⟨_, List.getElem_mem hk, ?_⟩
      have e : (vecFn n (Par.signedNorm M option l1))[k]'hk = Par.signedNorm M option l1 (k : Int) := by simp [vecFn]
      rw [e]
      exact decide_eq_true ((hz k).mpr hi)

/-- **C89.**  The types of `ParSmoother` other than `L1_Jacobi`, `L1_GS` and `Kaczmarz`, among them the default `Jacobi`, are options this
function does not know: on a process with rows it leaves zeros and sets the error flag. -/
theorem C89_other_options [Field R] [LinearOrder R] [IsStrictOrderedRing R] (M : ParMat R) (r0 r1 rn c0 c1 cn : Int) (h : M.WF r0 r1 rn c0 c1 cn)
    (hne : ∀ i, 0 ≤ i → i < r1 - r0 → M.diag.row i ≠ []) (hr : r0 < r1) (option : Int) (ho : option ≤ 0 ∨ 4 < option) :
    ∃ l, Par.l1Norms M option [] = .ok (l, true) ∧ VecIs l (r1 - r0) (fun _ => 0) := by
  obtain ⟨l, flag, h1, h2, h3⟩ := C89_norms_partial M r0 r1 rn c0 c1 cn h hne option []
  have hz : ∀ i, Par.rowNorm M option i (vecAt [] i) = 0 := by
    intro i
    unfold Par.rowNorm
    rw [if_neg (by omega), if_neg (by omega), if_neg (by omega), if_neg (by omega)]
    unfold vecAt
    simp
  have hf : flag = true := h3.mpr ⟨0, le_refl _, by omega, hz 0⟩
  subst hf
  refine ⟨l, h1, h2.congr ?_⟩
  intro i _ _
  unfold Par.signedNorm
  rw [hz]
  simp

namespace Par

/-- Two rows on one of two processes; the second stores no own column. -/
def exHole : ParMat Rat :=
  ⟨2, 2, [0, 2, 3], [0, 2, 3], ⟨2, 2, [0, 1, 1], [0], [5]⟩, ⟨2, 1, [0, 0, 1], [0], [7]⟩, [2]⟩

/-- Two rows; the first stores no own column. -/
def exHole' : ParMat Rat :=
  ⟨2, 2, [0, 2, 3], [0, 2, 3], ⟨2, 2, [0, 0, 1], [1], [-5]⟩, ⟨2, 1, [0, 1, 1], [0], [7]⟩, [2]⟩

end Par

/-- **C89.**  When the last row stores no own column, the function reads past the end of the values, for every option. -/
theorem C89_false : Par.exHole.WF 0 2 3 0 2 3 ∧ Par.l1Norms Par.exHole 1 [] = .error .outOfBounds ∧
    Par.l1Norms Par.exHole 2 [] = .error .outOfBounds ∧ Par.l1Norms Par.exHole 0 [] = .error .outOfBounds := by
  refine ⟨?_, by decide +kernel, by decide +kernel, by decide +kernel⟩
  constructor <;> first | decide | exact ⟨by decide, by decide, by decide, by decide⟩

/-- **C89.**  When another row stores no own column, the sign of its norm is taken from the next row: row 0 is `(0, 0, 7)`, and its norm
comes out as -7. -/
theorem C89_wrong_sign : Par.exHole'.WF 0 2 3 0 2 3 ∧ Par.exHole'.coef 0 2 = 7 ∧ Par.l1Norms Par.exHole' 1 [] = .ok ([-7, -5], false) := by
  refine ⟨?_, by decide +kernel, by decide +kernel⟩
  constructor <;> first | decide | exact ⟨by decide, by decide, by decide, by decide⟩

/-! ### What option 1 is for -/

namespace Par

theorem sum_abs_rowCoef [Field R] [LinearOrder R] [IsStrictOrderedRing R] (S : Finset Int) (r : List (Int × R)) :
    ∑ k ∈ S, |rowCoef r k| ≤ (r.map (fun e => |e.2|)).sum := by
  induction r with
  | nil => simp [rowCoef]
  | cons e r ih =>
    rw [List.map_cons, List.sum_cons]
    have h1 : ∀ k ∈ S, |rowCoef (e :: r) k| ≤ |if e.1 = k then e.2 else 0| + |rowCoef r k| := by
      intro k _
      rw [rowCoef_cons]
      exact abs_add_le _ _
    refine le_trans (Finset.sum_le_sum h1) ?_
    rw [Finset.sum_add_distrib]
    refine add_le_add ?_ ih
    have h2 : ∀ k ∈ S, |if e.1 = k then e.2 else 0| = if e.1 = k then |e.2| else 0 := by
      intro k _
      split <;> simp
    rw [Finset.sum_congr rfl h2, Finset.sum_ite_eq]
    split
    · exact le_refl _
    · exact abs_nonneg _

/-- The l1 norm of a row is at least the sum of the absolute coefficients. -/
theorem sum_abs_coef [Field R] [LinearOrder R] [IsStrictOrderedRing R] {M : ParMat R} {r0 r1 rn c0 c1 cn : Int} (h : M.WF r0 r1 rn c0 c1 cn)
    (i : Int) : ∑ c ∈ Finset.Ico (0 : Int) cn, |M.coef i c| ≤ rowNorm M 1 i 0 := by
  have e : ∀ c, |M.coef i c| = M.coef i c * (if 0 ≤ M.coef i c then 1 else -1) := by
    intro c
    split
    · rename_i h; rw [abs_of_nonneg h, mul_one]
    · rename_i h; rw [abs_of_neg (not_le.mp h)]; ring
  have hg : ∀ c, |if 0 ≤ M.coef i c then (1 : R) else -1| = 1 := by
    intro c
    split <;> simp
  rw [Finset.sum_congr rfl (fun c _ => e c), sum_coef_mul h i (fun c => if 0 ≤ M.coef i c then 1 else -1)]
  unfold rowNorm
  rw [if_pos rfl]
  unfold Csr.rowSum
  have hle : ∀ (a b : R), |b| = 1 → a * b ≤ |a| := by
    intro a b hb
    calc a * b ≤ |a * b| := le_abs_self _
      _ = |a| := by rw [abs_mul, hb, mul_one]
  refine add_le_add ?_ ?_
  · refine le_trans (Finset.sum_le_sum (fun k _ => hle _ _ (hg _))) ?_
    have := sum_abs_rowCoef (Finset.Ico (0 : Int) (c1 - c0)) (M.diag.row i)
    simpa only [Csr.coef_eq] using this
  · refine le_trans (Finset.sum_le_sum (fun k _ => hle _ _ (hg _))) ?_
    have := sum_abs_rowCoef (Finset.Ico (0 : Int) M.colMap.length) (M.offd.row i)
    simpa only [Csr.coef_eq] using this

end Par

/-- **C89.**  For a symmetric distributed matrix whose rows all begin with a non-negative own value, the norms of option 1, as a diagonal
matrix `D`, bound the matrix: `x · A x ≤ x · D x` for every vector.  This is what makes the l1 smoother converge. -/
theorem C89_bounds [Field R] [LinearOrder R] [IsStrictOrderedRing R] (Ms : List (ParMat R)) (o : List Int) (hM : Par.IsDist Ms o o)
    (hsym : ∀ g c, Par.globalCoef Ms g c = Par.globalCoef Ms c g)
    (hne : ∀ (p : Nat) (hp : p < Ms.length) (i : Int), 0 ≤ i → i < vecAt o (p + 1) - vecAt o p → Ms[p].diag.row i ≠ [] ∧ 0 ≤ Ms[p].diag.rowFirst i) :
    ∃ ls, Ms.mapM (fun M => Par.l1Norms M 1 []) = .ok ls ∧ Par.IsShares (ls.map Prod.fst) o ∧
      ∀ x : Int → R, ∑ g ∈ Finset.Ico (0 : Int) (vecAt o Ms.length), ∑ c ∈ Finset.Ico (0 : Int) (vecAt o Ms.length),
          x g * (Par.globalCoef Ms g c * x c)
        ≤ ∑ g ∈ Finset.Ico (0 : Int) (vecAt o Ms.length), x g * (Par.globalVec (ls.map Prod.fst) g * x g) := by
  obtain ⟨ls, l1, l2, l3⟩ := Par.mapM_exists Ms (fun M => Par.l1Norms M 1 [])
    (fun p l => ∀ (hp : p < Ms.length), VecIs l.1 (vecAt o (p + 1) - vecAt o p) (fun i => Par.rowNorm Ms[p] 1 i 0)) (by
    intro p hp
    have w := hM.share p hp
    obtain ⟨l, flag, h1, h2, -⟩ := C89_norms_partial Ms[p] _ _ _ _ _ _ w (fun i i0 i1 => (hne p hp i i0 i1).1) 1 []
    refine ⟨(l, flag), h1, fun _ => h2.congr ?_⟩
    intro i i0 i1
    unfold Par.signedNorm
    rw [if_neg (not_lt.mpr (hne p hp i i0 i1).2)]
    unfold Par.rowNorm
    rw [if_pos rfl, if_pos rfl])
  have hsh : Par.IsShares (ls.map Prod.fst) o := by
    refine ⟨by rw [List.length_map, l2]; exact hM.rows_len, hM.rows_first, ?_⟩
    intro p hp
    rw [List.length_map] at hp
    rw [List.getElem_map]
    exact (l3 p (by omega) (by omega)).length_eq
  refine ⟨ls, l1, hsh, fun x => ?_⟩
  have hrow : ∀ g ∈ Finset.Ico (0 : Int) (vecAt o Ms.length),
      ∑ c ∈ Finset.Ico (0 : Int) (vecAt o Ms.length), |Par.globalCoef Ms g c| ≤ Par.globalVec (ls.map Prod.fst) g := by
    intro g hg
    obtain ⟨p, hp, h1, h2⟩ := Par.exists_owner hM.rows_len hM.rows_first (Finset.mem_Ico.mp hg).1 (Finset.mem_Ico.mp hg).2
    have e : g = vecAt o p + (g - vecAt o p) := by omega
    have hs := hsh.share p (by rw [List.length_map]; omega)
    rw [e, hsh.globalVec p (by rw [List.length_map]; omega) (by omega) (by omega), List.getElem_map,
      (l3 p (by omega) hp).vecAt_eq (by omega) (by omega)]
    have := Par.sum_abs_coef (hM.share p hp) (g - vecAt o p)
    refine le_trans (le_of_eq ?_) this
    apply Finset.sum_congr rfl
    intro c _
    rw [Par.globalCoef_owner hM p hp (by omega) (by omega)]
  generalize hS : Finset.Ico (0 : Int) (vecAt o Ms.length) = S at hrow ⊢
  have hpt : ∀ g ∈ S, ∀ c ∈ S, x g * (Par.globalCoef Ms g c * x c)
      ≤ |Par.globalCoef Ms g c| * (x g * x g) / 2 + |Par.globalCoef Ms g c| * (x c * x c) / 2 := by
    intro g _ c _
    generalize Par.globalCoef Ms g c = a
    rcases le_total 0 a with ha | ha
    · rw [abs_of_nonneg ha]
      nlinarith [mul_nonneg ha (mul_self_nonneg (x g - x c))]
    · rw [abs_of_nonpos ha]
      nlinarith [mul_nonneg (neg_nonneg.mpr ha) (mul_self_nonneg (x g + x c))]
  calc ∑ g ∈ S, ∑ c ∈ S, x g * (Par.globalCoef Ms g c * x c)
      ≤ ∑ g ∈ S, ∑ c ∈ S, (|Par.globalCoef Ms g c| * (x g * x g) / 2 + |Par.globalCoef Ms g c| * (x c * x c) / 2) :=
        Finset.sum_le_sum (fun g hg => Finset.sum_le_sum (fun c hc => hpt g hg c hc))
    _ = ∑ g ∈ S, (∑ c ∈ S, |Par.globalCoef Ms g c|) * (x g * x g) := by
        simp only [Finset.sum_add_distrib]
        have e2 : ∑ g ∈ S, ∑ c ∈ S, |Par.globalCoef Ms g c| * (x c * x c) / 2 = ∑ g ∈ S, ∑ c ∈ S, |Par.globalCoef Ms g c| * (x g * x g) / 2 := by
          rw [Finset.sum_comm]
          apply Finset.sum_congr rfl
          intro g _
          apply Finset.sum_congr rfl
          intro c _
          rw [hsym c g]
        rw [e2, ← Finset.sum_add_distrib]
        apply Finset.sum_congr rfl
        intro g _
        rw [← Finset.sum_add_distrib, Finset.sum_mul]
        apply Finset.sum_congr rfl
        intro c _
        ring
    _ ≤ ∑ g ∈ S, x g * (Par.globalVec (ls.map Prod.fst) g * x g) := by
        apply Finset.sum_le_sum
        intro g hg
        have := mul_le_mul_of_nonneg_right (hrow g hg) (mul_self_nonneg (x g))
        linarith [this, show Par.globalVec (ls.map Prod.fst) g * (x g * x g) = x g * (Par.globalVec (ls.map Prod.fst) g * x g) by ring]

namespace Par

/-- `[[2, -1], [-1, 2]]` on two processes. -/
def exL1 : List (ParMat Rat) :=
  [⟨1, 1, [0, 1, 2], [0, 1, 2], ⟨1, 1, [0, 1], [0], [2]⟩, ⟨1, 1, [0, 1], [0], [-1]⟩, [1]⟩,
   ⟨1, 1, [1, 2, 2], [1, 2, 2], ⟨1, 1, [0, 1], [0], [2]⟩, ⟨1, 1, [0, 1], [0], [-1]⟩, [0]⟩]

theorem exL1_dist : IsDist exL1 [0, 1, 2] [0, 1, 2] := by
  have a0 : exL1[0].WF 0 1 2 0 1 2 := by constructor <;> first | decide | exact ⟨by decide, by decide, by decide, by decide⟩
  have a1 : exL1[1].WF 1 2 2 1 2 2 := by constructor <;> first | decide | exact ⟨by decide, by decide, by decide, by decide⟩
  refine ⟨rfl, rfl, rfl, rfl, by decide, by decide, ?_⟩
  intro p hp
  rcases p with _ | _ | p
  · exact a0
  · exact a1
  · exact absurd hp (by simp [exL1])

end Par

example : Par.IsDist Par.exL1 [0, 1, 2] [0, 1, 2] ∧ (∀ p (hp : p < Par.exL1.length), Par.exL1[p].diag.row 0 ≠ [] ∧ 0 ≤ Par.exL1[p].diag.rowFirst 0) ∧
    Par.exL1.mapM (fun M => Par.l1Norms M 1 []) = .ok [([3], false), ([3], false)] ∧
    Par.exL1.mapM (fun M => Par.l1Norms M 3 []) = .ok [([5], false), ([5], false)] ∧
    Par.exL1.mapM (fun M => Par.l1Norms M 4 []) = .ok [([2], false), ([2], false)] ∧
    Par.exL1.mapM (fun M => Par.l1Norms M 0 []) = .ok [([0], true), ([0], true)] :=
  ⟨Par.exL1_dist, by decide +kernel, by decide +kernel, by decide +kernel, by decide +kernel, by decide +kernel⟩

end Linalg
