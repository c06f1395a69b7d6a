import Verif.Proof.SubMatrix

/-!
# Submatrix extraction (C07)
-/

namespace Linalg
open Cpp

variable {α R : Type}

/-- **C07.**  With a marker full of `-1` and in-range rows and columns, repeats allowed in both, `GetSubMatrix(rows, cols, marker)` returns normally,
leaves the marker exactly as it was, and returns a well-formed `|rows| x |cols|` matrix whose row `p` lists, in order, the stored entries of row
`rows[p]` whose column is selected, under the last position of that column in `cols`. -/
theorem C07_repeats [Zero α] (A : Csr α) (hA : A.WF) (rows cols : List Int) (M : Nat)
    (hM : A.cols ≤ M) (hrows : ∀ r ∈ rows, 0 ≤ r ∧ r < A.rows) (hc : ∀ c ∈ cols, 0 ≤ c ∧ c < A.cols) :
    ∃ S, A.getSubMatrixMarker rows cols (List.replicate M (-1)) = .ok (S, List.replicate M (-1)) ∧
      A.getSubMatrix rows cols = .ok S ∧ S.WF ∧ S.rows = rows.length ∧ S.cols = cols.length ∧
      ∀ (p : Nat) (hp : p < rows.length),
        S.row p = ((A.row rows[p]).filter (fun e => e.1 ∈ cols)).map (fun e => (((lastPos cols e.1 : Nat) : Int), e.2)) := by
  obtain ⟨n, rs, hn, hrs, rfl⟩ := hA.exists_rows
  refine ⟨_, getSubMatrixMarker_ofRows hrs rows cols M hM hrows hc, ?_, ?_, by simp [Csr.ofRows], rfl, ?_⟩
  · obtain ⟨N, rfl⟩ : ∃ N : Nat, n = N := ⟨n.toNat, by omega⟩
    unfold Csr.getSubMatrix
    have e : mkVec (Csr.ofRows (N : Int) rs).cols (-1 : Int) = _ := mkVec_nat N (-1)
    rw [e, ok_bind, getSubMatrixMarker_ofRows hrs rows cols N le_rfl hrows hc, ok_bind]
  · refine Csr.wf_ofRows (by omega) ?_
    intro r hr e he
    obtain ⟨x, _, rfl⟩ := List.mem_map.mp hr
    obtain ⟨e', he', rfl⟩ := List.mem_map.mp he
    have := (List.mem_filter.mp he').2
    have := lastPos_lt (by simpa using this : e'.1 ∈ cols)
    simp only; omega
  · intro p hp
    rw [Csr.row_ofRows _ _ p (by simpa using hp)]
    simp only [List.getElem_map]
    rw [row_ofRows_getD n rs (hrows _ (List.getElem_mem hp)).1]
    rfl

/-- **C07.**  Entry by entry, with repeated columns: the last copy of a column holds it, the others are empty. -/
theorem C07_repeats_coef [AddMonoid R] (A : Csr R) (hA : A.WF) (rows cols : List Int)
    (hrows : ∀ r ∈ rows, 0 ≤ r ∧ r < A.rows) (hc : ∀ c ∈ cols, 0 ≤ c ∧ c < A.cols) :
    ∃ S, A.getSubMatrix rows cols = .ok S ∧
      ∀ (p q : Nat) (hp : p < rows.length) (hq : q < cols.length),
        S.coef p q = if ∀ k (hk : k < cols.length), q < k → cols[k] ≠ cols[q] then A.coef rows[p] cols[q] else 0 := by
  obtain ⟨S, -, h1, -, -, -, h5⟩ := C07_repeats A hA rows cols A.cols.toNat (by have := hA.cols_nonneg; omega) hrows hc
  refine ⟨S, h1, fun p q hp hq => ?_⟩
  have hlast : (∀ k (hk : k < cols.length), q < k → cols[k] ≠ cols[q]) ↔ lastPos cols cols[q] = q := by
    obtain ⟨s1, s2⟩ := lastPos_spec (List.getElem_mem hq)
    have hl := lastPos_lt (List.getElem_mem hq)
    constructor
    · intro h
      have := s2 q hq rfl
      by_contra hne
      exact h _ hl (by omega) s1
    · intro h k hk hqk he
      have := s2 k hk he
      omega
  unfold Csr.coef
  rw [h5 p hp]
  generalize A.row rows[p] = r
  have key : ∀ r : List (Int × R), (((r.filter (fun e => e.1 ∈ cols)).map (fun e => (((lastPos cols e.1 : Nat) : Int), e.2))).filter
      (fun e => e.1 = (q : Int))) = if lastPos cols cols[q] = q then (r.filter (fun e => e.1 = cols[q])).map (fun e => ((q : Int), e.2)) else [] := by
    intro r
    induction r with
    | nil => simp
    | cons e r ih =>
      by_cases hm : e.1 ∈ cols
      · by_cases he : e.1 = cols[q]
        · by_cases hq' : lastPos cols cols[q] = q
          · rw [if_pos hq'] at ih ⊢
            simp [List.filter_cons, hm, he, hq']
            simpa using ih
          · rw [if_neg hq'] at ih ⊢
            have : ¬ ((lastPos cols cols[q] : Nat) : Int) = q := by omega
            simp [List.filter_cons, he, hq']
            simpa using ih
        · have : ((lastPos cols e.1 : Nat) : Int) ≠ q := by
            intro h
            have h' : lastPos cols e.1 = q := by omega
            apply he
            have := (lastPos_spec hm).1
            simp only [h'] at this
            exact this.symm
          simp only [List.filter_cons, hm, decide_true, if_true, List.map_cons, this, he, decide_false, Bool.false_eq_true, if_false]
          exact ih
      · have he : e.1 ≠ cols[q] := fun h => hm (h ▸ List.getElem_mem hq)
        simp only [List.filter_cons, hm, decide_false, Bool.false_eq_true, if_false, he]
        exact ih
  rw [key]
  by_cases h : lastPos cols cols[q] = q
  · rw [if_pos h, if_pos (hlast.2 h)]
    simp
    rfl
  · rw [if_neg h, if_neg (fun h' => h (hlast.1 h'))]
    rfl

/-- A repeated column: only its last copy is filled. -/
example : let A : Csr Int := ⟨2, 3, [0, 2, 4], [0, 2, 1, 2], [4, 5, 9, 6]⟩
    A.WF ∧ A.getSubMatrix [0, 1, 0] [2, 0, 2] = .ok ⟨3, 3, [0, 2, 3, 5], [1, 2, 2, 1, 2], [4, 5, 6, 4, 5]⟩ := ⟨by decide, by decide⟩

/-- **C07.**  With duplicate-free columns the position of a column is the only one. -/
theorem C07_getSubMatrix [Zero α] (A : Csr α) (hA : A.WF) (rows cols : List Int) (M : Nat)
    (hM : A.cols ≤ M) (hrows : ∀ r ∈ rows, 0 ≤ r ∧ r < A.rows) (hd : cols.Nodup)
    (hc : ∀ c ∈ cols, 0 ≤ c ∧ c < A.cols) :
    ∃ S, A.getSubMatrixMarker rows cols (List.replicate M (-1)) = .ok (S, List.replicate M (-1)) ∧
      S.WF ∧ S.rows = rows.length ∧ S.cols = cols.length ∧
      ∀ (p : Nat) (hp : p < rows.length),
        S.row p = ((A.row rows[p]).filter (fun e => e.1 ∈ cols)).map
          (fun e => (((cols.idxOf e.1 : Nat) : Int), e.2)) := by
  obtain ⟨S, h1, -, h3, h4, h5, h6⟩ := C07_repeats A hA rows cols M hM hrows hc
  refine ⟨S, h1, h3, h4, h5, fun p hp => ?_⟩
  rw [h6 p hp]
  apply List.map_congr_left
  intro e he
  have := (List.mem_filter.mp he).2
  rw [lastPos_nodup hd (by simpa using this)]

/-- **C07.**  The same extraction allocating its own marker. -/
theorem C07_getSubMatrix_alloc [Zero α] (A : Csr α) (hA : A.WF) (rows cols : List Int)
    (hrows : ∀ r ∈ rows, 0 ≤ r ∧ r < A.rows) (hc : ∀ c ∈ cols, 0 ≤ c ∧ c < A.cols)
    (M : Nat) (hM : A.cols ≤ M) (S : Csr α)
    (h : A.getSubMatrixMarker rows cols (List.replicate M (-1)) = .ok (S, List.replicate M (-1))) :
    A.getSubMatrix rows cols = .ok S := by
  obtain ⟨S', h1, h2, -⟩ := C07_repeats A hA rows cols M hM hrows hc
  rw [h1] at h
  simp only [Except.ok.injEq, Prod.mk.injEq] at h
  rw [← h.1]
  exact h2

/-- **C07.**  Entry by entry: `S(p, q) = A(rows[p], cols[q])`. -/
theorem C07_getSubMatrix_coef [AddMonoid R] (A : Csr R) (hA : A.WF) (rows cols : List Int)
    (hrows : ∀ r ∈ rows, 0 ≤ r ∧ r < A.rows) (hd : cols.Nodup) (hc : ∀ c ∈ cols, 0 ≤ c ∧ c < A.cols) :
    ∃ S, A.getSubMatrix rows cols = .ok S ∧ S.WF ∧ S.rows = rows.length ∧ S.cols = cols.length ∧
      ∀ (p q : Nat) (hp : p < rows.length) (hq : q < cols.length),
        S.coef p q = A.coef rows[p] cols[q] := by
  obtain ⟨S, h1, h2, h3, h4, h5⟩ := C07_getSubMatrix A hA rows cols A.cols.toNat
    (by have := hA.cols_nonneg; omega) hrows hd hc
  refine ⟨S, C07_getSubMatrix_alloc A hA rows cols hrows hc _ (by have := hA.cols_nonneg; omega) S h1,
    h2, h3, h4, ?_⟩
  intro p q hp hq
  unfold Csr.coef
  rw [h5 p hp]
  generalize A.row rows[p] = r
  congr 1
  induction r with
  | nil => rfl
  | cons e r ih =>
    by_cases hm : e.1 ∈ cols
    · have hi := List.idxOf_lt_length_of_mem hm
      have hg : cols[cols.idxOf e.1] = e.1 := List.getElem_idxOf hi
      by_cases he : e.1 = cols[q]
      · have : cols.idxOf e.1 = q := by
          apply (List.Nodup.getElem_inj_iff hd (hi := hi) (hj := hq)).mp
          rw [hg, he]
        have hm' : cols[q] ∈ cols := he ▸ hm
        have this' : cols.idxOf cols[q] = q := he ▸ this
        simp only [List.filter_cons, hm', decide_true, if_true, List.map_cons, this', he]
        rw [ih]
      · have : ((cols.idxOf e.1 : Nat) : Int) ≠ (q : Int) := by
          intro h
          apply he
          have : cols.idxOf e.1 = q := by omega
          rw [← hg]; simp only [this]
        simp only [List.filter_cons, hm, decide_true, if_true, List.map_cons, this, he, decide_false,
          Bool.false_eq_true, if_false]
        exact ih
    · have he : e.1 ≠ cols[q] := fun h => hm (h ▸ List.getElem_mem hq)
      simp only [List.filter_cons, hm, decide_false, Bool.false_eq_true, if_false, he]
      exact ih

/-- **C07.**  A marker shorter than the columns of the matrix, or a row beyond the last one, stops at an assertion. -/
theorem C07_rejects [Zero α] (A : Csr α) (hA : A.WF) (rows cols : List Int) :
    (∀ marker : List Int, (marker.length : Int) < A.cols → A.getSubMatrixMarker rows cols marker = .error .assertFail) ∧
    ((∀ c ∈ cols, 0 ≤ c ∧ c < A.cols) → (∀ r ∈ rows, 0 ≤ r) → (∃ r ∈ rows, A.rows ≤ r) →
      (∀ M : Nat, A.cols ≤ M → A.getSubMatrixMarker rows cols (List.replicate M (-1)) = .error .assertFail) ∧
      A.getSubMatrix rows cols = .error .assertFail) := by
  refine ⟨fun marker h => ?_, fun hc hr hex => ?_⟩
  · unfold Csr.getSubMatrixMarker
    rw [cassert_false (by omega)]
    rfl
  · have key : ∀ M : Nat, A.cols ≤ M → A.getSubMatrixMarker rows cols (List.replicate M (-1)) = .error .assertFail := by
      intro M hM
      obtain ⟨n, rs, hn, hrs, rfl⟩ := hA.exists_rows
      have hcM : ∀ c ∈ cols, 0 ≤ c ∧ c < (M : Int) := fun c h => ⟨(hc c h).1, lt_of_lt_of_le (hc c h).2 hM⟩
      unfold Csr.getSubMatrixMarker
      rw [cassert_true (by simp only [List.length_replicate]; exact_mod_cast hM)]
      simp only [ok_bind]
      have h0 : wr (List.replicate (rows.length + 1) (0 : Int)) 0 0 = .ok (List.replicate (rows.length + 1) (0 : Int)) := by
        have := wr_nat (v := List.replicate (rows.length + 1) (0 : Int)) (n := 0) (x := 0) (by simp)
        simpa using this
      rw [h0, ok_bind, marker_pass M cols hcM, ok_bind]
      rw [forUp_fails (fun i st => st.2.length = rows.length + 1) (fun i => ∀ r, rd rows i = .ok r → r < rs.length) .assertFail]
      · rfl
      · simp
      · intro i st hi0 hi1 hl hg
        obtain ⟨k, rfl⟩ : ∃ k : Nat, i = k := ⟨i.toNat, by omega⟩
        have hk : k < rows.length := by omega
        rw [rd_nat hk] at hg ⊢
        have h1 := hg _ rfl
        have h2 := hr rows[k] (List.getElem_mem hk)
        obtain ⟨x, hx⟩ : ∃ x : Nat, rows[k] = x := ⟨rows[k].toNat, by omega⟩
        have hx' : x < rs.length := by omega
        rw [ok_bind, cassert_true (by simp only [Csr.ofRows]; omega), ok_bind, hx, count_row (n := n) cols x hx' (fun e he => by
          have h1 := hrs _ (List.getElem_mem hx') e he
          have h2 : n ≤ (M : Int) := hM
          omega), ok_bind]
        have e0 : (0 : Int) ≤ (k : Int) + 1 := by omega
        have e1 : (k : Int) + 1 < (st.2.length : Int) := by rw [hl]; omega
        rw [wr_int e0 e1, ok_bind]
        exact ⟨_, rfl, by simpa using hl⟩
      · intro i st hi0 hi1 hl hg
        obtain ⟨k, rfl⟩ : ∃ k : Nat, i = k := ⟨i.toNat, by omega⟩
        have hk : k < rows.length := by omega
        rw [rd_nat hk] at hg ⊢
        rw [ok_bind, cassert_false]
        · rfl
        · intro h
          apply hg
          intro r hr
          cases hr
          exact h
      · obtain ⟨r, hm, hr'⟩ := hex
        obtain ⟨k, hk, rfl⟩ := List.getElem_of_mem hm
        refine ⟨k, by omega, by omega, fun h => ?_⟩
        have := h _ (rd_nat hk)
        have e : (Csr.ofRows n rs).rows = rs.length := rfl
        omega
    refine ⟨key, ?_⟩
    unfold Csr.getSubMatrix
    have hcn := hA.cols_nonneg
    rw [mkVec_int hcn, ok_bind, key _ (by omega)]
    rfl

/-- A sequence of extractions sharing one marker. -/
def subMatrixHistory [Zero α] :
    List (Csr α × List Int × List Int) → List Int → Res (List (Csr α) × List Int)
  | [], marker => .ok ([], marker)
  | (A, rows, cols) :: reqs, marker => do
    let (S, marker) ← A.getSubMatrixMarker rows cols marker
    let (Ss, marker) ← subMatrixHistory reqs marker
    .ok (S :: Ss, marker)

/-- **C07.**  Any sequence of extractions (from any matrices) sharing one long enough marker gives exactly the
results of the separate extractions, and the marker ends full of `-1`. -/
theorem C07_history [Zero α] (reqs : List (Csr α × List Int × List Int)) (M : Nat)
    (hreq : ∀ q ∈ reqs, q.1.WF ∧ q.1.cols ≤ M ∧ (∀ r ∈ q.2.1, 0 ≤ r ∧ r < q.1.rows) ∧
      ∀ c ∈ q.2.2, 0 ≤ c ∧ c < q.1.cols) :
    ∃ Ss, subMatrixHistory reqs (List.replicate M (-1)) = .ok (Ss, List.replicate M (-1)) ∧
      reqs.map (fun q => q.1.getSubMatrix q.2.1 q.2.2) = Ss.map .ok := by
  induction reqs with
  | nil => exact ⟨[], rfl, rfl⟩
  | cons q reqs ih =>
    obtain ⟨A, rows, cols⟩ := q
    obtain ⟨Ss, h1, h2⟩ := ih (fun q hq => hreq q (by simp [hq]))
    obtain ⟨hA, hM, hr, hc⟩ := hreq (A, rows, cols) (by simp)
    obtain ⟨S, h3, -⟩ := C07_repeats A hA rows cols M hM hr hc
    refine ⟨S :: Ss, ?_, ?_⟩
    · simp only [subMatrixHistory]
      rw [h3]
      simp only [ok_bind]
      rw [h1]
      rfl
    · rw [List.map_cons, List.map_cons, h2,
        C07_getSubMatrix_alloc A hA rows cols hr hc M hM S h3]

/-- **C07.**  Without the duplicate-free condition the claim fails: for `cols = [0, 0]` only the last copy is
filled. -/
theorem C07_duplicate_cols_false :
    ∃ (A : Csr Int) (S : Csr Int), A.WF ∧ A.getSubMatrix [0] [0, 0] = .ok S ∧ A.coef 0 0 = 7 ∧
      S.coef 0 0 = 0 ∧ S.coef 0 1 = 7 :=
  ⟨⟨1, 1, [0, 1], [0], [7]⟩, ⟨1, 2, [0, 1], [1], [7]⟩, by decide, by decide, by decide, by decide, by decide⟩

/-- The hypotheses of C07 are met with a repeated row and permuted columns. -/
example : ∃ A : Csr Int, A.WF ∧ (∀ r ∈ ([1, 0, 1] : List Int), 0 ≤ r ∧ r < A.rows) ∧ ([2, 0] : List Int).Nodup ∧
    (∀ c ∈ ([2, 0] : List Int), 0 ≤ c ∧ c < A.cols) ∧
    A.getSubMatrixMarker [1, 0, 1] [2, 0] [-1, -1, -1, -1]
      = .ok (⟨3, 2, [0, 1, 3, 4], [0, 1, 0, 0], [6, 4, 5, 6]⟩, [-1, -1, -1, -1]) :=
  ⟨⟨2, 3, [0, 2, 4], [0, 2, 1, 2], [4, 5, 9, 6]⟩, by decide, by decide, by decide, by decide, by decide⟩

end Linalg
