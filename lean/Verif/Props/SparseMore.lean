import Verif.Proof.Filter
import Verif.Props.SparseUpdate
import Mathlib.Algebra.Order.Group.Unbundled.Abs
import Mathlib.Algebra.Order.Ring.Int

/-!
# Zero removal, diagonal, column permutation, scalar updates, array constructor (C08, C10, C11, C13, C15)
-/

namespace Linalg
open Cpp

variable {α R : Type}

/-! ## EliminateZeros -/

/-- **C08.**  `EliminateZeros(tol)` keeps, in order, exactly the stored entries with `|v| > tol`, and leaves a
well-formed matrix of the same shape. -/
theorem C08_eliminateZeros [LinearOrder α] [AddGroup α] (A : Csr α) (hA : A.WF) (tol : α) :
    ∃ B, A.eliminateZeros tol = .ok B ∧ B.WF ∧ B.rows = A.rows ∧ B.cols = A.cols ∧
      ∀ i, B.row i = (A.row i).filter (fun e => |e.2| > tol) := by
  obtain ⟨n, rs, hn, hrs, rfl⟩ := hA.exists_rows
  refine ⟨Csr.ofRows n (rs.map (fun r => r.filter (fun e => |e.2| > tol))), ?_,
    Csr.wf_ofRows hn (filterRows_ok _ hrs), by simp [Csr.ofRows], rfl, ?_⟩
  · unfold Csr.eliminateZeros
    rw [filterLoop_ofRows n rs (fun d => |d| > tol)]
    simp [Csr.ofRows]
  · intro i
    exact row_ofRows_map n n rs _ rfl i

/-- **C08.**  With tolerance 0 the represented matrix is unchanged and no stored zero remains. -/
theorem C08_eliminateZeros_default [LinearOrder R] [AddCommGroup R] [IsOrderedAddMonoid R] (A : Csr R)
    (hA : A.WF) :
    ∃ B, A.eliminateZeros 0 = .ok B ∧ (∀ i j, B.coef i j = A.coef i j) ∧
      ∀ i, ∀ e ∈ B.row i, e.2 ≠ 0 := by
  obtain ⟨B, hB, -, -, -, hrow⟩ := C08_eliminateZeros A hA 0
  refine ⟨B, hB, ?_, ?_⟩
  · intro i j
    rw [Csr.coef_eq, Csr.coef_eq, hrow]
    induction A.row i with
    | nil => rfl
    | cons e r ih =>
      rw [rowCoef_cons]
      by_cases h : |e.2| > 0
      · rw [List.filter_cons_of_pos (by simpa using h), rowCoef_cons, ih]
      · rw [List.filter_cons_of_neg (by simpa using h), ih]
        have : e.2 = 0 := by
          by_contra hne; exact h (abs_pos.mpr hne)
        simp [this]
  · intro i e he
    rw [hrow, List.mem_filter] at he
    have := he.2
    simpa using this

/-- A matrix with stored zeros, one of them a duplicate position. -/
def exZ : Csr Int := ⟨2, 2, [0, 3, 4], [0, 1, 0, 1], [0, 5, -2, 0]⟩

example : exZ.WF ∧ exZ.eliminateZeros 0 = .ok ⟨2, 2, [0, 2, 2], [1, 0], [5, -2]⟩ := by decide

/-! ## Diagonal -/

/-- **C10.**  What `GetDiag()` returns for every square well-formed matrix: for each `i` the last value stored
at `(i, i)`, or 0 if there is none. -/
theorem C10_getDiag_last [Zero α] (A : Csr α) (hA : A.WF) (hsq : A.rows = A.cols) :
    ∃ d, A.getDiag = .ok d ∧ (d.length : Int) = A.rows ∧
      ∀ i, 0 ≤ i → i < A.rows →
        rd d i = .ok ((((A.row i).filter (fun e => e.1 = i)).map Prod.snd).getLastD 0) := by
  obtain ⟨n, rs, hn, hrs, rfl⟩ := hA.exists_rows
  have hr : (Csr.ofRows n rs).rows = (rs.length : Int) := rfl
  unfold Csr.getDiag
  rw [cassert_true hsq, hr, mkVec_nat]
  simp only [ok_bind]
  rw [forUp_build (n := rs.length) (by simp)
    (fun k => (((rs.getD k []).filter (fun e => e.1 = (k : Int))).map Prod.snd).getLastD 0)]
  · refine ⟨_, rfl, by simp, ?_⟩
    intro i h0 h1
    rw [rd_eq_ok]
    refine ⟨h0, ?_⟩
    have : ((i.toNat : Nat) : Int) = i := by omega
    rw [row_ofRows_getD n rs h0, List.getElem?_map, List.getElem?_range (by omega)]
    simp only [Option.map_some, this]
  · intro k hk out ho
    rw [Csr.forRow_ofRows n rs k hk _ _ (fun e val => .ok (if e.1 = (k : Int) then e.2 else val))]
    · have := (foldlM_eq_foldl (l := rs[k])
        (f := fun (val : α) e => (.ok (if e.1 = (k : Int) then e.2 else val) : Res α))
        (g := fun val e => if e.1 = (k : Int) then e.2 else val) (fun _ => True) (s := (0 : α)) trivial
        (fun _ _ _ _ => ⟨rfl, trivial⟩)).1
      rw [this]
      simp only [ok_bind]
      rw [foldl_last, wr_nat (by omega)]
      simp [hk]
    · intro m hm s
      rw [rd_data_ofRows n rs k m hk hm, rd_indices_ofRows n rs k m hk hm]
      simp only [ok_bind]
      split <;> rfl

/-- **C10 (partial).**  `GetDiag()[i] = A(i,i)`, provided no row stores its diagonal position twice.  Missing: with
duplicates the claim is false, see `C10_getDiag_false`. -/
theorem C10_getDiag_partial [AddMonoid R] (A : Csr R) (hA : A.WF) (hsq : A.rows = A.cols)
    (hdup : ∀ i, ((A.row i).map Prod.fst).count i ≤ 1) :
    ∃ d, A.getDiag = .ok d ∧ (d.length : Int) = A.rows ∧
      ∀ i, 0 ≤ i → i < A.rows → rd d i = .ok (A.coef i i) := by
  obtain ⟨d, h1, h2, h3⟩ := C10_getDiag_last A hA hsq
  refine ⟨d, h1, h2, ?_⟩
  intro i h0 hi
  rw [h3 i h0 hi]
  congr 1
  unfold Csr.coef
  have hl : ((A.row i).filter (fun e => e.1 = i)).length ≤ 1 := by
    have := hdup i
    rw [List.count_eq_length_filter, List.filter_map, List.length_map] at this
    exact le_trans (le_of_eq (by congr 1)) this
  generalize (A.row i).filter (fun e => e.1 = i) = l at hl
  match l, hl with
  | [], _ => rfl
  | [e], _ => simp
  | _ :: _ :: _, hl => simp at hl

/-- **C10.**  With a duplicated diagonal position `GetDiag` differs from the matrix that `Mult` applies. -/
theorem C10_getDiag_false :
    ∃ A : Csr Int, A.WF ∧ A.rows = A.cols ∧ A.getDiag = .ok [3] ∧ A.coef 0 0 = 5 :=
  ⟨⟨1, 1, [0, 2], [0, 0], [2, 3]⟩, by decide, by decide, by decide, by decide⟩

/-- **C10.**  What `AddDiag(d)` does to every square well-formed matrix: `d[i]` is added to every value stored at
`(i, i)`; nothing else changes. -/
theorem C10_addDiag [AddZeroClass α] (A : Csr α) (hA : A.WF) (hsq : A.rows = A.cols) (d : List α)
    (hd : A.rows ≤ d.length) :
    ∃ B, A.addDiag d = .ok B ∧ B.WF ∧
      A.UpdatedBy B (fun i j v => if j = i then v + vecAt d i else v) := by
  obtain ⟨n, rs, hn, hrs, rfl⟩ := hA.exists_rows
  have hd' : (rs.length : Int) ≤ d.length := hd
  unfold Csr.addDiag
  rw [cassert_true hsq]
  simp only [ok_bind]
  refine upd_ofRows hn hrs _ (fun i e => if e.1 = i then e.2 + vecAt d i else e.2) ?_
  intro t p ht hp hi dd hdd hv
  have hc := (triplesL_ok hrs t ht).1
  simp only [hv, hi, ok_bind]
  by_cases e : t.2.1 = t.1
  · simp only [e, if_true]
    rw [rd_vecAt d hc.1 (by omega)]
    exact wr_nat (by omega)
  · simp only [e, if_false]; rw [set_getElem_self dd p _ hv]

/-- **C10.**  The scalar form adds the same value to every stored diagonal entry. -/
theorem C10_addDiagVal [AddZeroClass α] (A : Csr α) (hA : A.WF) (hsq : A.rows = A.cols) (val : α) :
    ∃ B, A.addDiagVal val = .ok B ∧ B.WF ∧
      A.UpdatedBy B (fun i j v => if j = i then v + val else v) := by
  obtain ⟨n, rs, hn, hrs, rfl⟩ := hA.exists_rows
  unfold Csr.addDiagVal
  rw [cassert_true hsq]
  simp only [ok_bind]
  refine upd_ofRows hn hrs _ (fun i e => if e.1 = i then e.2 + val else e.2) ?_
  intro t p ht hp hi dd hdd hv
  simp only [hv, hi, ok_bind]
  by_cases e : t.2.1 = t.1
  · simp only [e, if_true]
    exact wr_nat (by omega)
  · simp only [e, if_false]; rw [set_getElem_self dd p _ hv]

/-- **C10 (partial).**  The coefficients after `AddDiag(d)`: `A(i,i)` grows by `d[i]` times the number of
entries stored at `(i,i)`, everything else is unchanged.  The claimed effect therefore holds exactly in rows
storing their diagonal once; missing: rows with no or several stored diagonal entries
(`C10_addDiag_false`). -/
theorem C10_addDiag_coef_partial [AddCommMonoid R] (A : Csr R) (hA : A.WF) (hsq : A.rows = A.cols)
    (d : List R) (hd : A.rows ≤ d.length) :
    ∃ B, A.addDiag d = .ok B ∧ (∀ i j, i ≠ j → B.coef i j = A.coef i j) ∧
      (∀ i, B.coef i i = A.coef i i + ((A.row i).map Prod.fst).count i • vecAt d i) ∧
      (∀ i, ((A.row i).map Prod.fst).count i = 1 → B.coef i i = A.coef i i + vecAt d i) := by
  obtain ⟨B, hB, -, hu⟩ := C10_addDiag A hA hsq d hd
  have key : ∀ i, B.coef i i = A.coef i i + ((A.row i).map Prod.fst).count i • vecAt d i := by
    intro i
    rw [Csr.coef_eq, Csr.coef_eq, hu.row_eq]
    induction A.row i with
    | nil => simp
    | cons e r ih =>
      rw [List.map_cons, rowCoef_cons, rowCoef_cons, ih, List.map_cons]
      by_cases h : e.1 = i
      · rw [h, List.count_cons_self, add_nsmul, one_nsmul]
        simp only [if_true]
        abel
      · rw [List.count_cons_of_ne h]
        simp only [h, if_false, zero_add]
  refine ⟨B, hB, ?_, key, ?_⟩
  · intro i j hij
    rw [hu.coef i j (AddMonoidHom.id R) (by
      intro v _
      have : ¬ j = i := fun e => hij e.symm
      simp [this])]; rfl
  · intro i hi; rw [key i, hi, one_nsmul]

/-- **C10.**  `AddDiag` silently does nothing in a row without a stored diagonal entry. -/
theorem C10_addDiag_false :
    ∃ (A B : Csr Int), A.WF ∧ A.rows = A.cols ∧ A.addDiag [7, 7] = .ok B ∧ A.coef 0 0 = 0 ∧ B.coef 0 0 = 0 :=
  ⟨⟨2, 2, [0, 1, 2], [1, 0], [1, 1]⟩, ⟨2, 2, [0, 1, 2], [1, 0], [1, 1]⟩,
    by decide, by decide, by decide, by decide, by decide⟩

example : exE.getDiag = .ok [5, 8, 4] ∧ exE.rows = exE.cols := by decide

/-! ## The array constructor -/

/-- **C11.**  The constructor accepts arrays on which a product then reads out of range: the claim is false. -/
theorem C11_constructor_unsafe :
    ∃ (p ix : List Int) (dt : List Int) (A : Csr Int),
      Csr.ofArrays p ix dt 2 2 = .ok A ∧ ¬ A.WF ∧ A.mult [1, 1] [0, 0] = .error .outOfBounds :=
  ⟨[0, 1, 5], [0, 1], [1, 1], ⟨2, 2, [0, 1, 5], [0, 1], [1, 1]⟩, by decide, by decide, by decide⟩

/-- **C11.**  It also accepts decreasing row pointers, and the product silently ignores entries. -/
theorem C11_constructor_accepts_decreasing :
    ∃ (p ix : List Int) (dt : List Int) (A : Csr Int),
      Csr.ofArrays p ix dt 2 2 = .ok A ∧ ¬ A.WF :=
  ⟨[0, 2, 1], [0, 1], [1, 1], ⟨2, 2, [0, 2, 1], [0, 1], [1, 1]⟩, by decide, by decide⟩

/-- **C11 (partial).**  With two extra conditions on the row pointers — non-decreasing, last one equal to the
number of stored entries — an accepted matrix is well-formed, hence safe for every operation proved here.
Missing: the constructor does not check them (`C11_constructor_unsafe`). -/
theorem C11_constructor_partial (p ix : List Int) (dt : List α) (rows cols : Int) (A : Csr α)
    (h : Csr.ofArrays p ix dt rows cols = .ok A)
    (hmono : p.Pairwise (· ≤ ·)) (hlast : p.getLast? = some (dt.length : Int)) :
    A.WF ∧ A.rows = rows ∧ A.cols = cols ∧ A.indptr = p ∧ A.indices = ix ∧ A.data = dt := by
  unfold Csr.ofArrays at h
  simp only [bind_eq_ok, cassert_ok_iff] at h
  obtain ⟨_, h1, _, h2, _, h3, _, h4, p0, h5, _, h6, h7⟩ := h
  have hcols : ∀ c ∈ ix, 0 ≤ c ∧ c < cols := by
    split at h7
    · simp only [bind_eq_ok, cassert_ok_iff] at h7
      obtain ⟨_, h8, _, h9, -⟩ := h7
      exact fun c hc => ⟨h9 c hc, h8 c hc⟩
    · rename_i hlen
      intro c hc
      have := List.length_pos_of_mem hc
      omega
  have hA : A = ⟨rows, cols, p, ix, dt⟩ := by
    split at h7
    · simp only [bind_eq_ok, cassert_ok_iff] at h7
      obtain ⟨_, _, _, _, h10⟩ := h7
      exact (Except.ok.inj h10).symm
    · exact (Except.ok.inj h7).symm
  subst hA
  refine ⟨⟨h1, h2, h3, ?_, hmono, hlast, h4, hcols⟩, rfl, rfl, rfl, rfl, rfl⟩
  rw [rd_eq_ok] at h5
  rw [List.head?_eq_getElem?]
  have := h5.2
  rw [h6] at this
  simpa using this

/-- **C11.**  Conversely every well-formed matrix is accepted by the constructor, and returned unchanged. -/
theorem C11_constructor_accepts_wf (A : Csr α) (hA : A.WF) :
    Csr.ofArrays A.indptr A.indices A.data A.rows A.cols = .ok A := by
  obtain ⟨n, rs, hn, hrs, rfl⟩ := hA.exists_rows
  exact Csr.ofArrays_ofRows hn hrs

/-- **C11.**  The other constructors always produce well-formed matrices. -/
theorem C11_other_constructors (rows cols : Int) (hr : 0 ≤ rows) (hc : 0 ≤ cols) (diag : List α) :
    (Csr.empty : Csr α).WF ∧ (∃ Z : Csr α, Csr.zero rows cols = .ok Z ∧ Z.WF ∧ Z.rows = rows ∧ Z.cols = cols ∧
      ∀ i, Z.row i = []) ∧ (Csr.ofDiag diag).WF := by
  refine ⟨⟨by simp [Csr.empty], by simp [Csr.empty], by simp [Csr.empty], by simp [Csr.empty],
    by simp [Csr.empty], by simp [Csr.empty], rfl, by intro c hc; cases hc⟩, ?_, ?_⟩
  · obtain ⟨N, rfl⟩ : ∃ N : Nat, rows = (N : Int) := ⟨rows.toNat, by omega⟩
    have hp : List.replicate ((N : Int) + 1).toNat (0 : Int) = ptrs (List.replicate N ([] : List (Int × α))) := by
      apply List.ext_getElem
      · simp
      · intro k h1 h2
        rw [getElem_ptrs]
        simp [List.take_replicate, List.flatten_replicate_nil]
    have hZ : (Csr.zero (N : Int) cols : Res (Csr α)) = .ok (Csr.ofRows cols (List.replicate N [])) := by
      unfold Csr.zero
      rw [cassert_true hr, cassert_true hc, mkVec_int (by omega), hp]
      simp [Csr.ofRows]
    refine ⟨_, hZ, Csr.wf_ofRows hc (by intro r hr e he; rw [List.eq_of_mem_replicate hr] at he; cases he),
      by simp [Csr.ofRows], rfl, ?_⟩
    intro i
    by_cases h0 : 0 ≤ i
    · rw [row_ofRows_getD _ _ h0, List.getD_eq_getElem?_getD, List.getElem?_replicate]
      split <;> rfl
    · exact Csr.row_neg _ (by omega)
  · constructor
    · simp [Csr.ofDiag]
    · simp [Csr.ofDiag]
    · simp [Csr.ofDiag]
    · simp [Csr.ofDiag, iota, List.range_succ_eq_map]
    · simp only [Csr.ofDiag, iota, List.pairwise_map]
      exact List.pairwise_lt_range.imp (by intro a b h; simp; omega)
    · simp [Csr.ofDiag, iota, List.range_succ]
    · simp [Csr.ofDiag]
    · intro c hc
      have := mem_iota.mp (show c ∈ iota diag.length from hc)
      simpa [Csr.ofDiag] using this

example : Csr.ofArrays [0, 3, 4] [2, 0, 2, 1] [5, 6, 7, 8] 2 3
    = .ok (⟨2, 3, [0, 3, 4], [2, 0, 2, 1], [5, 6, 7, 8]⟩ : Csr Int) := by decide

/-! ## PermuteCols -/

/-- **C13.**  `PermuteCols(perm)` relabels the column of every stored entry; any map into the valid columns is
accepted. -/
theorem C13_permuteCols (A : Csr α) (hA : A.WF) (perm : List Int) (hp : (perm.length : Int) = A.cols)
    (hr : ∀ c ∈ perm, 0 ≤ c ∧ c < A.cols) :
    ∃ B, A.permuteCols perm = .ok B ∧ B.WF ∧ B.rows = A.rows ∧ B.cols = A.cols ∧
      ∀ i, B.row i = (A.row i).map (fun e => (vecAt perm e.1, e.2)) := by
  obtain ⟨n, rs, hn, hrs, rfl⟩ := hA.exists_rows
  have hp' : (perm.length : Int) = n := hp
  have hvec : ∀ c, 0 ≤ c → c < n → 0 ≤ vecAt perm c ∧ vecAt perm c < n := by
    intro c h0 h1
    rw [vecAt_int perm h0 (by omega)]
    exact hr _ (List.getElem_mem _)
  have hcols : ∀ c ∈ rs.flatten.map Prod.fst, 0 ≤ c ∧ c < n := (Csr.wf_ofRows hn hrs).cols_ok
  refine ⟨Csr.ofRows n (rs.map (fun r => r.map (fun e => (vecAt perm e.1, e.2)))), ?_, ?_,
    by simp [Csr.ofRows], rfl, ?_⟩
  · unfold Csr.permuteCols
    rw [cassert_true hp]
    simp only [ok_bind]
    rw [forUp_map (Csr.ofRows n rs).indices (vecAt perm)]
    · simp only [ok_bind]
      have e1 : ptrs (rs.map (fun r => r.map (fun e => (vecAt perm e.1, e.2)))) = ptrs rs :=
        ptrs_map_length rs _ (by intro r; simp)
      simp only [Csr.ofRows, e1, ← List.map_flatten, List.map_map, Function.comp_def, List.length_map]
    · intro p hpl d hd hv
      have hc := hcols _ (List.getElem_mem hpl)
      rw [hv]
      simp only [ok_bind]
      rw [rd_vecAt perm hc.1 (by rw [hp']; exact hc.2)]
      simp only [ok_bind]
      have h2 := hvec _ hc.1 hc.2
      rw [cassert_true (by exact h2.1), cassert_true (by exact h2.2), ok_bind, ok_bind, wr_nat (by omega)]
  · apply Csr.wf_ofRows hn
    intro r hr' e he
    obtain ⟨r', hr'', rfl⟩ := List.mem_map.mp hr'
    obtain ⟨x, hx, rfl⟩ := List.mem_map.mp he
    have := hrs r' hr'' x hx
    exact hvec _ this.1 this.2
  · intro i
    exact row_ofRows_map n n rs _ rfl i

theorem vecAt_inj {n : Int} {perm : List Int} (h : IsPerm n perm) {a b : Int} (ha : 0 ≤ a ∧ a < n)
    (hb : 0 ≤ b ∧ b < n) (he : vecAt perm a = vecAt perm b) : a = b := by
  have h1 := h.1
  rw [vecAt_int perm ha.1 (by omega), vecAt_int perm hb.1 (by omega)] at he
  have := (List.Nodup.getElem_inj_iff h.2.2).mp he
  omega

/-- **C13.**  For a permutation, the coefficient at `(i, j)` moves to `(i, perm[j])`. -/
theorem C13_permuteCols_coef [AddMonoid R] (A : Csr R) (hA : A.WF) (perm : List Int)
    (hp : IsPerm A.cols perm) :
    ∃ B, A.permuteCols perm = .ok B ∧
      ∀ i j, 0 ≤ j → j < A.cols → B.coef i (vecAt perm j) = A.coef i j := by
  obtain ⟨B, hB, -, -, -, hrow⟩ := C13_permuteCols A hA perm hp.1 hp.2.1
  refine ⟨B, hB, ?_⟩
  intro i j h0 h1
  rw [Csr.coef_eq, Csr.coef_eq, hrow]
  have hok : ∀ e ∈ A.row i, 0 ≤ e.1 ∧ e.1 < A.cols := fun e he => (Csr.mem_row_ok hA he).2.2
  revert hok
  induction A.row i with
  | nil => intro _; rfl
  | cons e r ih =>
    intro hok
    rw [List.map_cons, rowCoef_cons, rowCoef_cons, ih (fun x hx => hok x (by simp [hx]))]
    congr 1
    have : (vecAt perm e.1 = vecAt perm j) ↔ e.1 = j :=
      ⟨fun h => vecAt_inj hp (hok e (by simp)) ⟨h0, h1⟩ h, fun h => by rw [h]⟩
    simp [this]

/-- **C13.**  Permuting by a permutation and then by its inverse restores the matrix, array for array. -/
theorem C13_permuteCols_inverse (A : Csr α) (hA : A.WF) (perm inv : List Int)
    (hp : IsPerm A.cols perm) (hi : (inv.length : Int) = A.cols ∧ ∀ c ∈ inv, 0 ≤ c ∧ c < A.cols)
    (hinv : ∀ j, 0 ≤ j → j < A.cols → vecAt inv (vecAt perm j) = j) :
    ∃ B, A.permuteCols perm = .ok B ∧ B.permuteCols inv = .ok A := by
  obtain ⟨B, hB, hBw, hr, hc, hrow⟩ := C13_permuteCols A hA perm hp.1 hp.2.1
  obtain ⟨C, hC, hCw, hr', hc', hrow'⟩ := C13_permuteCols B hBw inv (by rw [hc]; exact hi.1)
    (by rw [hc]; exact hi.2)
  refine ⟨B, hB, ?_⟩
  rw [hC]
  congr 1
  apply Csr.ext_rows hCw hA (by rw [hr', hr]) (by rw [hc', hc])
  intro i _ _
  rw [hrow', hrow, List.map_map]
  conv_rhs => rw [← List.map_id (A.row i)]
  apply List.map_congr_left
  intro e he
  have := (Csr.mem_row_ok hA he).2.2
  simp [hinv _ this.1 this.2]

example : IsPerm exE.cols [2, 0, 1] := ⟨by decide, by decide, by decide⟩
example : ∀ j : Int, 0 ≤ j → j < exE.cols → vecAt [1, 2, 0] (vecAt [2, 0, 1] j) = j := by
  intro j h0 h1
  have : j = 0 ∨ j = 1 ∨ j = 2 := by simp only [exE] at h1; omega
  rcases this with rfl | rfl | rfl <;> decide
example : exE.permuteCols [2, 0, 1]
    = .ok ⟨3, 3, [0, 3, 4, 6], [2, 1, 0, 0, 2, 1], [5, 6, 7, 8, 9, 4]⟩ := by decide

/-! ## Scalar updates and sums -/

/-- **C15.**  `A *= s` multiplies every stored value, on the same pattern, for any well-formed matrix. -/
theorem C15_scale [Mul α] (A : Csr α) (hA : A.WF) (s : α) :
    (A.scale s).WF ∧ A.UpdatedBy (A.scale s) (fun _ _ v => v * s) := by
  obtain ⟨n, rs, hn, hrs, rfl⟩ := hA.exists_rows
  have : (Csr.ofRows n rs).scale s = Csr.ofRows n (mapRows (fun _ e => e.2 * s) rs) := by
    rw [ofRows_mapRows]
    simp only [Csr.scale, Csr.ofRows, ← triplesL_map_snd rs, List.map_map, Function.comp_def]
  rw [this]
  exact ⟨Csr.wf_ofRows hn (mapRows_ok hrs), updatedBy_mapRows n rs _⟩

/-- **C15.**  `A *= s` scales every coefficient. -/
theorem C15_scale_coef [NonUnitalNonAssocSemiring R] (A : Csr R) (hA : A.WF) (s : R) (i j : Int) :
    (A.scale s).coef i j = A.coef i j * s := by
  rw [(C15_scale A hA s).2.coef i j (AddMonoidHom.mulRight s) (fun _ _ => rfl)]; rfl

/-- **C15.**  `A /= s` is rejected for `s = 0` and otherwise divides every stored value. -/
theorem C15_divScale [DivisionRing α] [DecidableEq α] (A : Csr α) (hA : A.WF) (s : α) :
    (s = 0 → A.divScale s = .error .assertFail) ∧
    (s ≠ 0 → ∃ B, A.divScale s = .ok B ∧ B.WF ∧ A.UpdatedBy B (fun _ _ v => v / s) ∧
      ∀ i j, B.coef i j = A.coef i j / s) := by
  constructor
  · intro h; unfold Csr.divScale; rw [cassert_false (by simpa using h)]; rfl
  · intro h
    obtain ⟨n, rs, hn, hrs, rfl⟩ := hA.exists_rows
    have : (Csr.ofRows n rs).divScale s = .ok (Csr.ofRows n (mapRows (fun _ e => e.2 / s) rs)) := by
      rw [ofRows_mapRows]
      unfold Csr.divScale
      rw [cassert_true h]
      simp only [Csr.ofRows, ← triplesL_map_snd rs, List.map_map, Function.comp_def, ok_bind]
    have hu := updatedBy_mapRows n rs (fun _ e => e.2 / s)
    refine ⟨_, this, Csr.wf_ofRows hn (mapRows_ok hrs), hu, ?_⟩
    intro i j
    rw [hu.coef i j (AddMonoidHom.mulRight s⁻¹) (by intro v _; simp [div_eq_mul_inv])]
    simp [div_eq_mul_inv]

/-- **C15.**  `A *= s; A /= s` restores the matrix exactly over a division ring. -/
theorem C15_scale_inverse [DivisionRing α] [DecidableEq α] (A : Csr α) (s : α) (hs : s ≠ 0) :
    (A.scale s).divScale s = .ok A := by
  unfold Csr.divScale Csr.scale
  rw [cassert_true hs]
  simp only [ok_bind, List.map_map, Function.comp_def, mul_div_cancel_right₀ _ hs, List.map_id']

/-- **C15.**  `A = s` sets every stored value to `s` (and rejects 0). -/
theorem C15_fill [Zero α] [DecidableEq α] (A : Csr α) (hA : A.WF) (s : α) :
    (s = 0 → A.fillVal s = .error .assertFail) ∧
    (s ≠ 0 → ∃ B, A.fillVal s = .ok B ∧ B.WF ∧ A.UpdatedBy B (fun _ _ _ => s)) := by
  constructor
  · intro h; unfold Csr.fillVal; rw [cassert_false (by simpa using h)]; rfl
  · intro h
    obtain ⟨n, rs, hn, hrs, rfl⟩ := hA.exists_rows
    refine ⟨Csr.ofRows n (mapRows (fun _ _ => s) rs), ?_, Csr.wf_ofRows hn (mapRows_ok hrs),
      updatedBy_mapRows n rs _⟩
    rw [ofRows_mapRows]
    unfold Csr.fillVal
    rw [cassert_true h]
    simp only [ok_bind, Csr.ofRows, ← triplesL_map_snd rs]
    simp

/-- **C15.**  `Sum()` is the sum of all coefficients. -/
theorem C15_sum [NonAssocSemiring R] (A : Csr R) (hA : A.WF) :
    A.sum = ∑ i ∈ Finset.Ico 0 A.rows, ∑ j ∈ Finset.Ico 0 A.cols, A.coef i j := by
  obtain ⟨n, rs, hn, hrs, rfl⟩ := hA.exists_rows
  have h1 : (Csr.ofRows n rs).sum = ((triplesL rs).map (fun t => t.2.2)).sum := by
    unfold Csr.sum
    have := foldl_add_eq (R := R) id (Csr.ofRows n rs).data 0
    simp only [id] at this
    rw [this, zero_add, List.map_id_fun, id]
    simp only [Csr.ofRows, ← triplesL_map_snd rs, List.map_map, Function.comp_def]
  rw [h1, sum_triplesL rs (fun _ e => e.2)]
  apply Finset.sum_congr rfl
  intro i hi
  have hi' := Finset.mem_Ico.mp hi
  have := sum_row_eq (r := rs.getD i.toNat []) (n := n) (by
    rw [List.getD_eq_getElem?_getD, List.getElem?_eq_getElem (by omega)]
    exact hrs _ (List.getElem_mem _)) (fun _ => (1 : R))
  simp only [mul_one] at this
  rw [this]
  apply Finset.sum_congr rfl
  intro j _
  rw [coef_ofRows_getD n rs hi'.1]

/-- **C15.**  `MaxNorm()` is the sum of the absolute stored values (as its documentation says; it is not a
maximum norm). -/
theorem C15_maxNorm [LinearOrder R] [AddGroup R] (A : Csr R) (hA : A.WF) :
    A.maxNorm = ((iota A.rows.toNat).map (fun i => ((A.row i).map (fun e => |e.2|)).sum)).sum := by
  obtain ⟨n, rs, hn, hrs, rfl⟩ := hA.exists_rows
  unfold Csr.maxNorm
  rw [foldl_add_eq, zero_add]
  have hr : (Csr.ofRows n rs).rows.toNat = rs.length := by simp [Csr.ofRows]
  rw [hr]
  have : (iota rs.length).map (fun i => (((Csr.ofRows n rs).row i).map (fun e => |e.2|)).sum)
      = rs.map (fun r => (r.map (fun e => |e.2|)).sum) := by
    apply List.ext_getElem
    · simp
    · intro k h1 h2
      simp only [List.getElem_map, getElem_iota]
      rw [Csr.row_ofRows n rs k (by simpa using h2)]
  rw [this]
  simp only [Csr.ofRows, List.map_map, Function.comp_def]
  clear hrs this hr hA
  induction rs with
  | nil => rfl
  | cons r rs ih => rw [List.flatten_cons, List.map_append, List.sum_append, ih]; simp

example : exE.sum = 39 ∧ exE.maxNorm = 39 ∧ (exE.scale 2).data = [10, 12, 14, 16, 18, 8] := by decide

end Linalg
