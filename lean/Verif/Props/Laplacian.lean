import Verif.Proof.Laplacian
import Verif.Proof.Coo
import Verif.Props.PowerIter
import Verif.Props.Solvers
import Mathlib.Data.Real.Sqrt

/-!
# Graph Laplacians (C95)
-/

namespace Linalg
open Cpp

variable {R K : Type}

/-- **C95.**  For a matrix that stores its diagonal and no entry twice, `AdjToLaplacian` keeps the stored positions and makes the values
those of the Laplacian of the graph. -/
theorem C95_laplacian [Ring R] (A : Csr R) (hA : A.WF) (hn : A.NoDup) (hd : ∀ i, 0 ≤ i → i < A.rows → A.Stored i i) :
    ∃ L, Example.adjToLaplacian A = .ok L ∧ L.WF ∧ A.UpdatedBy L (fun i j _ => if j = i then (A.degree i : R) else -1) ∧
      A.IsLaplacian L.coef := by
  obtain ⟨n, rs, hn0, hrs, rfl⟩ := hA.exists_rows
  have hloop : forUp 0 (Csr.ofRows n rs).rows (Csr.ofRows n rs).data (fun row data => Example.lapRow (Csr.ofRows n rs) row data)
      = .ok (Csr.ofRows n (Example.lapRows rs)).data := by
    obtain ⟨s, h1, h2⟩ := forUp_inv_nat (n := rs.length) (f := fun row data => Example.lapRow (Csr.ofRows n rs) row data)
      (fun k s => s = ((Example.lapRows rs).take k ++ rs.drop k).flatten.map Prod.snd) (s := (Csr.ofRows n rs).data) (by simp [Csr.ofRows]) (by
        intro k s hk hs
        obtain ⟨e1, e2⟩ := Example.lap_split rs k hk
        refine ⟨_, ?_, rfl⟩
        rw [hs, e1, e2]
        refine (Example.lapRow_ok n rs k hk _ _ (Example.lap_pos rs k)).1 ?_ ?_
        · have := hn (k : Int)
          rwa [Csr.row_ofRows n rs k hk] at this
        · have := hd (k : Int) (by omega) (by simp [Csr.ofRows]; omega)
          unfold Csr.Stored at this
          rw [Csr.row_ofRows n rs k hk] at this
          obtain ⟨e, he, h⟩ := List.mem_map.mp this
          exact ⟨e, he, h⟩)
    rw [show (Csr.ofRows n rs).rows = (rs.length : Int) from rfl, h1, h2]
    congr 1
    have hl : (Example.lapRows rs).length = rs.length := by simp [Example.lapRows]
    rw [List.drop_length, List.append_nil, ← hl, List.take_length]
    rfl
  have hup : (Csr.ofRows n rs).UpdatedBy (Csr.ofRows n (Example.lapRows rs))
      (fun i j _ => if j = i then ((Csr.ofRows n rs).degree i : R) else -1) := by
    have h := updatedBy_mapRows n rs (fun i e => Example.lapVal (rs.getD i.toNat []) i e)
    refine ⟨h.rows_eq, h.cols_eq, h.indptr_eq, h.indices_eq, fun i => ?_⟩
    rw [show Csr.ofRows n (Example.lapRows rs) = Csr.ofRows n (mapRows (fun i e => Example.lapVal (rs.getD i.toNat []) i e) rs) from rfl,
      h.row_eq]
    by_cases h0 : 0 ≤ i
    · apply List.map_congr_left
      intro e _
      unfold Example.lapVal Csr.degree
      rw [row_ofRows_getD n rs h0]
    · rw [Csr.row_neg _ (by omega)]
      rfl
  refine ⟨Csr.ofRows n (Example.lapRows rs), ?_, Csr.wf_ofRows hn0 (mapRows_ok hrs), hup, ?_⟩
  · unfold Example.adjToLaplacian
    rw [hloop, ok_bind]
    exact congrArg _ (withData_mapRows n rs _)
  · have hc : ∀ i j, (Csr.ofRows n (Example.lapRows rs)).coef i j
        = if (Csr.ofRows n rs).Stored i j then (if j = i then ((Csr.ofRows n rs).degree i : R) else -1) else 0 := by
      intro i j
      rw [Csr.coef_eq, hup.row_eq]
      have : ((Csr.ofRows n rs).row i).map (fun e => (e.1, if e.1 = i then ((Csr.ofRows n rs).degree i : R) else -1))
          = (((Csr.ofRows n rs).row i).map Prod.fst).map (fun c => (c, if c = i then ((Csr.ofRows n rs).degree i : R) else -1)) := by
        rw [List.map_map]
        rfl
      rw [this]
      by_cases hj : (Csr.ofRows n rs).Stored i j
      · rw [if_pos hj]
        exact rowCoef_map_nodup _ (hn i) (fun c => if c = i then ((Csr.ofRows n rs).degree i : R) else -1) j (fun h => absurd hj h)
      · rw [if_neg hj]
        apply rowCoef_eq_zero
        intro e he
        obtain ⟨c, hc, rfl⟩ := List.mem_map.mp he
        intro h
        exact hj (h ▸ hc)
    refine ⟨fun i h0 h1 => ?_, fun i j h0 h1 hne hs => ?_, fun i j h0 h1 hne hs => ?_⟩
    · rw [hc, if_pos (hd i h0 h1), if_pos rfl]
    · rw [hc, if_pos hs, if_neg (Ne.symm hne)]
    · rw [hc, if_neg hs]

/-- **C95.**  If some row does not store its diagonal, an assertion fails. -/
theorem C95_missing [Ring R] (A : Csr R) (hA : A.WF) (hn : A.NoDup) (i : Int) (h0 : 0 ≤ i) (h1 : i < A.rows) (hi : ¬ A.Stored i i) :
    Example.adjToLaplacian A = .error .assertFail := by
  obtain ⟨n, rs, hn0, hrs, rfl⟩ := hA.exists_rows
  have hr : (Csr.ofRows n rs).rows = (rs.length : Int) := rfl
  have hloop : forUp 0 (Csr.ofRows n rs).rows (Csr.ofRows n rs).data (fun row data => Example.lapRow (Csr.ofRows n rs) row data)
      = .error .assertFail := by
    refine forUp_fails (fun k s => s = ((Example.lapRows rs).take k.toNat ++ rs.drop k.toNat).flatten.map Prod.snd)
      (fun k => (Csr.ofRows n rs).Stored k k) .assertFail (by simp [Csr.ofRows]) ?_ ?_ ⟨i, h0, h1, hi⟩
    · intro k s k0 k1 hs hg
      obtain ⟨k, rfl⟩ := Int.eq_ofNat_of_zero_le k0
      have hk : k < rs.length := by rw [hr] at k1; omega
      obtain ⟨e1, e2⟩ := Example.lap_split rs k hk
      rw [Int.toNat_natCast, e1] at hs
      refine ⟨((Example.lapRows rs).take k).flatten.map Prod.snd ++ rs[k].map (Example.lapVal rs[k] k)
        ++ (rs.drop (k + 1)).flatten.map Prod.snd, ?_, ?_⟩
      · rw [hs]
        refine (Example.lapRow_ok n rs k hk _ _ (Example.lap_pos rs k)).1 ?_ ?_
        · have := hn (k : Int)
          rwa [Csr.row_ofRows n rs k hk] at this
        · unfold Csr.Stored at hg
          rw [Csr.row_ofRows n rs k hk] at hg
          obtain ⟨e, he, h⟩ := List.mem_map.mp hg
          exact ⟨e, he, h⟩
      · rw [show ((k : Int) + 1).toNat = k + 1 by omega, e2]
    · intro k s k0 k1 hs hg
      obtain ⟨k, rfl⟩ := Int.eq_ofNat_of_zero_le k0
      have hk : k < rs.length := by rw [hr] at k1; omega
      obtain ⟨e1, e2⟩ := Example.lap_split rs k hk
      rw [Int.toNat_natCast, e1] at hs
      rw [hs]
      refine (Example.lapRow_ok n rs k hk _ _ (Example.lap_pos rs k)).2 ?_
      intro e he h
      apply hg
      unfold Csr.Stored
      rw [Csr.row_ofRows n rs k hk]
      exact List.mem_map.mpr ⟨e, he, h⟩
  unfold Example.adjToLaplacian
  rw [hloop]
  rfl

namespace Example

/-- 1 for an edge, 0 otherwise. -/
def edge [Ring R] (A : Csr R) (i j : Int) : R := if A.Stored i j ∧ i ≠ j then 1 else 0

theorem degree_eq [Ring R] (A : Csr R) (hA : A.WF) (hn : A.NoDup) (i : Int) :
    (A.degree i : R) = ∑ j ∈ Finset.Ico (0 : Int) A.cols, edge A i j := by
  unfold edge
  rw [Finset.sum_boole]
  congr 1
  unfold Csr.degree
  have hnd : (((A.row i).filter (fun e => e.1 ≠ i)).map Prod.fst).Nodup := (hn i).sublist (List.filter_sublist.map _)
  rw [← List.length_map (f := Prod.fst), ← List.toFinset_card_of_nodup hnd]
  congr 1
  ext j
  simp only [List.mem_toFinset, List.mem_map, List.mem_filter, Finset.mem_filter, Finset.mem_Ico, decide_eq_true_eq, Csr.Stored]
  constructor
  · rintro ⟨e, ⟨he, hne⟩, rfl⟩
    have := Csr.mem_row_ok hA he
    exact ⟨⟨this.2.2.1, this.2.2.2⟩, ⟨e, he, rfl⟩, fun h => hne h.symm⟩
  · rintro ⟨_, ⟨e, he, rfl⟩, hne⟩
    exact ⟨e, ⟨he, fun h => hne h.symm⟩, rfl⟩

theorem lap_apply [CommRing R] (A : Csr R) (hA : A.WF) (hn : A.NoDup) (hsq : A.rows = A.cols) (L : Int → Int → R) (hL : A.IsLaplacian L)
    (x : Int → R) (i : Int) (h0 : 0 ≤ i) (h1 : i < A.rows) :
    matVec A.rows L x i = ∑ j ∈ Finset.Ico (0 : Int) A.rows, edge A i j * (x i - x j) := by
  have hc : ∀ j ∈ Finset.Ico (0 : Int) A.rows, L i j * x j = (if j = i then (A.degree i : R) * x i else 0) - edge A i j * x j := by
    intro j _
    unfold edge
    by_cases hj : j = i
    · subst hj
      rw [if_pos rfl, if_neg (fun h => h.2 rfl), hL.diag j h0 h1]
      ring
    · rw [if_neg hj]
      by_cases hs : A.Stored i j
      · rw [if_pos ⟨hs, fun h => hj h.symm⟩, hL.edge i j h0 h1 (fun h => hj h.symm) hs]
        ring
      · rw [if_neg (fun h => hs h.1), hL.none i j h0 h1 (fun h => hj h.symm) hs]
        ring
  unfold matVec
  rw [Finset.sum_congr rfl hc, Finset.sum_sub_distrib, Finset.sum_ite_eq' (Finset.Ico (0 : Int) A.rows) i,
    if_pos (Finset.mem_Ico.mpr ⟨h0, h1⟩), degree_eq A hA hn i, ← hsq, Finset.sum_mul, ← Finset.sum_sub_distrib]
  exact Finset.sum_congr rfl (fun j _ => by ring)

end Example

/-- **C95.**  Each row of the Laplacian sums to zero. -/
theorem C95_rowSums [CommRing R] (A : Csr R) (hA : A.WF) (hn : A.NoDup) (hsq : A.rows = A.cols) (L : Int → Int → R) (hL : A.IsLaplacian L)
    (i : Int) (h0 : 0 ≤ i) (h1 : i < A.rows) : ∑ j ∈ Finset.Ico (0 : Int) A.rows, L i j = 0 := by
  have := Example.lap_apply A hA hn hsq L hL (fun _ => 1) i h0 h1
  unfold matVec at this
  simp only [mul_one, sub_self, mul_zero, Finset.sum_const_zero] at this
  exact this

/-- **C95.**  For an undirected graph the Laplacian is symmetric and its form is half the sum of the squared differences along the stored
positions. -/
theorem C95_form [CommRing R] (A : Csr R) (hA : A.WF) (hn : A.NoDup) (hsq : A.rows = A.cols) (hs : ∀ i j, A.Stored i j → A.Stored j i)
    (L : Int → Int → R) (hL : A.IsLaplacian L) :
    SymmOn A.rows L ∧ ∀ x : Int → R, 2 * dotFn A.rows x (matVec A.rows L x)
      = ∑ i ∈ Finset.Ico (0 : Int) A.rows, ∑ j ∈ Finset.Ico (0 : Int) A.rows,
          if A.Stored i j ∧ i ≠ j then (x i - x j) * (x i - x j) else 0 := by
  constructor
  · intro i j i0 i1 j0 j1
    by_cases h : i = j
    · rw [h]
    · by_cases hst : A.Stored i j
      · rw [hL.edge i j i0 i1 h hst, hL.edge j i j0 j1 (fun e => h e.symm) (hs i j hst)]
      · rw [hL.none i j i0 i1 h hst, hL.none j i j0 j1 (fun e => h e.symm) (fun e => hst (hs j i e))]
  · intro x
    have he : ∀ i j, Example.edge A i j = Example.edge A j i := by
      intro i j
      unfold Example.edge
      exact if_congr ⟨fun h => ⟨hs i j h.1, fun e => h.2 e.symm⟩, fun h => ⟨hs j i h.1, fun e => h.2 e.symm⟩⟩ rfl rfl
    have hq : dotFn A.rows x (matVec A.rows L x)
        = ∑ i ∈ Finset.Ico (0 : Int) A.rows, ∑ j ∈ Finset.Ico (0 : Int) A.rows, Example.edge A i j * (x i * (x i - x j)) := by
      unfold dotFn
      apply Finset.sum_congr rfl
      intro i hi
      have hi := Finset.mem_Ico.mp hi
      rw [Example.lap_apply A hA hn hsq L hL x i hi.1 hi.2, Finset.mul_sum]
      exact Finset.sum_congr rfl (fun j _ => by ring)
    have hq' : dotFn A.rows x (matVec A.rows L x)
        = ∑ i ∈ Finset.Ico (0 : Int) A.rows, ∑ j ∈ Finset.Ico (0 : Int) A.rows, Example.edge A i j * (x j * (x j - x i)) := by
      rw [hq, Finset.sum_comm]
      apply Finset.sum_congr rfl
      intro i _
      apply Finset.sum_congr rfl
      intro j _
      rw [he]
    rw [two_mul]
    nth_rw 1 [hq]
    rw [hq', ← Finset.sum_add_distrib]
    apply Finset.sum_congr rfl
    intro i _
    rw [← Finset.sum_add_distrib]
    apply Finset.sum_congr rfl
    intro j _
    unfold Example.edge
    split
    · ring
    · ring

/-- **C95.**  So its form is never negative, at most twice the largest degree on unit vectors, and zero exactly for the vectors that have equal
values at the ends of every edge. -/
theorem C95_semidefinite [Field K] [LinearOrder K] [IsStrictOrderedRing K] (A : Csr K) (hA : A.WF) (hn : A.NoDup) (hsq : A.rows = A.cols)
    (hs : ∀ i j, A.Stored i j → A.Stored j i) (L : Int → Int → K) (hL : A.IsLaplacian L) :
    PosSemiOn A.rows L ∧
    (∀ d : K, (∀ i, 0 ≤ i → i < A.rows → (A.degree i : K) ≤ d) → ∀ x, dotFn A.rows x (matVec A.rows L x) ≤ 2 * d * dotFn A.rows x x) ∧
    ∀ x, dotFn A.rows x (matVec A.rows L x) = 0 ↔ ∀ i j, A.Stored i j → x i = x j := by
  obtain ⟨-, hf⟩ := C95_form A hA hn hsq hs L hL
  have hnn : ∀ x : Int → K, ∀ i j, (0 : K) ≤ if A.Stored i j ∧ i ≠ j then (x i - x j) * (x i - x j) else 0 := by
    intro x i j
    split
    · exact mul_self_nonneg _
    · exact le_rfl
  have hr : ∀ i j, A.Stored i j → 0 ≤ i ∧ i < A.rows := by
    intro i j h
    obtain ⟨e, he, _⟩ := List.mem_map.mp h
    have := Csr.mem_row_ok hA he
    exact ⟨this.1, this.2.1⟩
  refine ⟨fun x => ?_, fun d hd x => ?_, fun x => ⟨fun h => ?_, fun h => ?_⟩⟩
  · have : 0 ≤ 2 * dotFn A.rows x (matVec A.rows L x) := by
      rw [hf x]
      exact Finset.sum_nonneg (fun i _ => Finset.sum_nonneg (fun j _ => hnn x i j))
    linarith
  · have h1 : 2 * dotFn A.rows x (matVec A.rows L x)
        ≤ ∑ i ∈ Finset.Ico (0 : Int) A.rows, ∑ j ∈ Finset.Ico (0 : Int) A.rows, Example.edge A i j * (2 * (x i * x i) + 2 * (x j * x j)) := by
      rw [hf x]
      apply Finset.sum_le_sum
      intro i _
      apply Finset.sum_le_sum
      intro j _
      unfold Example.edge
      split
      · nlinarith [mul_self_nonneg (x i + x j)]
      · rw [zero_mul]
    have h2 : ∀ i ∈ Finset.Ico (0 : Int) A.rows, ∑ j ∈ Finset.Ico (0 : Int) A.rows, Example.edge A i j * (2 * (x i * x i))
        ≤ 2 * d * (x i * x i) := by
      intro i hi
      have hi := Finset.mem_Ico.mp hi
      rw [← Finset.sum_mul, hsq, ← Example.degree_eq A hA hn i]
      have := mul_le_mul_of_nonneg_right (hd i hi.1 hi.2) (show 0 ≤ 2 * (x i * x i) by nlinarith [mul_self_nonneg (x i)])
      linarith
    have he : ∀ i j, Example.edge A i j = Example.edge A j i := by
      intro i j
      unfold Example.edge
      exact if_congr ⟨fun h => ⟨hs i j h.1, fun e => h.2 e.symm⟩, fun h => ⟨hs j i h.1, fun e => h.2 e.symm⟩⟩ rfl rfl
    have h3 : ∑ i ∈ Finset.Ico (0 : Int) A.rows, ∑ j ∈ Finset.Ico (0 : Int) A.rows, Example.edge A i j * (2 * (x i * x i) + 2 * (x j * x j))
        = ∑ i ∈ Finset.Ico (0 : Int) A.rows, ∑ j ∈ Finset.Ico (0 : Int) A.rows, Example.edge A i j * (2 * (x i * x i))
          + ∑ i ∈ Finset.Ico (0 : Int) A.rows, ∑ j ∈ Finset.Ico (0 : Int) A.rows, Example.edge A i j * (2 * (x i * x i)) := by
      have : ∑ i ∈ Finset.Ico (0 : Int) A.rows, ∑ j ∈ Finset.Ico (0 : Int) A.rows, Example.edge A i j * (2 * (x j * x j))
          = ∑ i ∈ Finset.Ico (0 : Int) A.rows, ∑ j ∈ Finset.Ico (0 : Int) A.rows, Example.edge A i j * (2 * (x i * x i)) := by
        rw [Finset.sum_comm]
        exact Finset.sum_congr rfl (fun i _ => Finset.sum_congr rfl (fun j _ => by rw [he]))
      nth_rw 2 [← this]
      rw [← Finset.sum_add_distrib]
      exact Finset.sum_congr rfl (fun i _ => by rw [← Finset.sum_add_distrib]; exact Finset.sum_congr rfl (fun j _ => by ring))
    have h4 := Finset.sum_le_sum h2
    rw [← Finset.mul_sum] at h4
    unfold dotFn at h1 ⊢
    linarith
  · have h1 := hf x
    rw [h, mul_zero] at h1
    intro i j hst
    by_cases hij : i = j
    · rw [hij]
    have hi := hr i j hst
    have hj := hr j i (hs i j hst)
    have h2 := (Finset.sum_eq_zero_iff_of_nonneg (fun i _ => Finset.sum_nonneg (fun j _ => hnn x i j))).mp h1.symm i (Finset.mem_Ico.mpr hi)
    have h3 := (Finset.sum_eq_zero_iff_of_nonneg (fun j _ => hnn x i j)).mp h2 j (Finset.mem_Ico.mpr hj)
    rw [if_pos ⟨hst, hij⟩] at h3
    exact sub_eq_zero.mp (mul_self_eq_zero.mp h3)
  · have : 2 * dotFn A.rows x (matVec A.rows L x) = 0 := by
      rw [hf x]
      refine Finset.sum_eq_zero (fun i _ => Finset.sum_eq_zero (fun j _ => ?_))
      split
      · next hh => rw [h i j hh.1, sub_self, mul_zero]
      · rfl
    linarith

/-- **C95.**  What the example computes: power iteration on the Laplacian of an undirected graph gives a number between 0 and twice the largest
degree, and more passes never give a smaller one. -/
theorem C95_power [Field K] [LinearOrder K] [IsStrictOrderedRing K] {sqrt : K → K} (hsq : IsSqrt sqrt) (A : Csr K) (hA : A.WF) (hn : A.NoDup)
    (hrc : A.rows = A.cols) (hs : ∀ i j, A.Stored i j → A.Stored j i) (hd : ∀ i, 0 ≤ i → i < A.rows → A.Stored i i)
    (d : K) (hdeg : ∀ i, 0 ≤ i → i < A.rows → (A.degree i : K) ≤ d) (x : List K) (hx : (x.length : Int) = A.rows) (tol : K) :
    ∃ L, Example.adjToLaplacian A = .ok L ∧
      (∀ (N : Nat) (r : K), 0 < N → Example.powerIterate sqrt L.toOp x N tol = .ok r → 0 ≤ r ∧ r ≤ 2 * d) ∧
      ∀ (N N' : Nat) (r r' : K), N ≤ N' → Example.powerIterate sqrt L.toOp x N tol = .ok r →
        Example.powerIterate sqrt L.toOp x N' tol = .ok r' → r ≤ r' := by
  obtain ⟨L, e, hw, hu, hl⟩ := C95_laplacian A hA hn hd
  obtain ⟨p1, p2, -⟩ := C95_semidefinite A hA hn hrc hs L.coef hl
  have hsym := (C95_form A hA hn hrc hs L.coef hl).1
  have hop := C42_sparse_op L hw (by rw [hu.rows_eq, hu.cols_eq, hrc])
  rw [hu.rows_eq, ← hx] at hop
  rw [← hx] at p1 p2 hsym
  refine ⟨L, e, fun N r hN hr => ?_, fun N N' r r' hN hr hr' => ?_⟩
  · refine C94_bounds hsq L.toOp x.length L.coef hop x rfl N hN tol r hr 0 (2 * d) (fun g => ?_) (fun g => ?_)
    · rw [zero_mul]; exact p1 g
    · exact p2 d (fun i h0 h1 => hdeg i h0 (by omega)) g
  · exact C94_monotone hsq L.toOp x.length L.coef hop hsym p1 x rfl N N' hN tol r r' hr hr'

/-! ## Instances -/

/-- A path of three vertices, with the diagonal, rows out of order. -/
def Example.exPath : Csr ℚ := ⟨3, 3, [0, 2, 5, 7], [1, 0, 2, 0, 1, 1, 2], [1, 1, 1, 1, 2, 1, 1]⟩

example : Example.exPath.WF ∧ Example.exPath.NoDup ∧ (∀ i, 0 ≤ i → i < Example.exPath.rows → Example.exPath.Stored i i) ∧
    Example.adjToLaplacian Example.exPath = .ok ⟨3, 3, [0, 2, 5, 7], [1, 0, 2, 0, 1, 1, 2], [-1, 1, -1, -1, 2, -1, 1]⟩ := by
  have hw : Example.exPath.WF := by decide +kernel
  refine ⟨hw, hw.noDup_iff.mpr (by decide +kernel), ?_, by decide +kernel⟩
  intro i h0 h1
  have h1 : i < 3 := h1
  rcases (by omega : i = 0 ∨ i = 1 ∨ i = 2) with rfl | rfl | rfl <;> decide +kernel

example : Example.adjToLaplacian (⟨2, 2, [0, 1, 2], [0, 0], [1, 1]⟩ : Csr ℚ) = .error .assertFail := by decide +kernel

namespace Example

/-- The matrix `[[2, 1], [1, 2]]`. -/
def exTwo : Csr ℝ := ⟨2, 2, [0, 2, 4], [0, 1, 0, 1], [2, 1, 1, 2]⟩

theorem exTwo_coef : exTwo.coef 0 0 = 2 ∧ exTwo.coef 0 1 = 1 ∧ exTwo.coef 1 0 = 1 ∧ exTwo.coef 1 1 = 2 := by
  refine ⟨?_, ?_, ?_, ?_⟩ <;> · simp [Csr.coef, Csr.row, exTwo, rd]

theorem sum_two (f : Int → ℝ) : ∑ i ∈ Finset.Ico (0 : Int) (2 : Nat), f i = f 0 + f 1 := by
  rw [show Finset.Ico (0 : Int) (2 : Nat) = {0, 1} from rfl, Finset.sum_pair (by decide)]

end Example

/-- The hypotheses of `C94_converges` hold for it, with the eigenvalue 3 and the start (1, 0). -/
example : IsSqrt Real.sqrt ∧ Example.exTwo.toOp.IsMat (2 : Nat) Example.exTwo.coef ∧ SymmOn (2 : Nat) Example.exTwo.coef ∧
    PosSemiOn (2 : Nat) Example.exTwo.coef ∧
    (∀ g, dotFn (2 : Nat) g (matVec (2 : Nat) Example.exTwo.coef g) ≤ 3 * dotFn (2 : Nat) g g) ∧
    (∀ i : Int, 0 ≤ i → i < (2 : Nat) → matVec (2 : Nat) Example.exTwo.coef (fun _ => 1) i = 3 * 1) ∧
    dotFn (2 : Nat) (vecAt [1, 0]) (fun _ => (1 : ℝ)) ≠ 0 := by
  obtain ⟨c1, c2, c3, c4⟩ := Example.exTwo_coef
  have hform : ∀ g, dotFn (2 : Nat) g (matVec (2 : Nat) Example.exTwo.coef g) = 2 * (g 0 * g 0) + 2 * (g 0 * g 1) + 2 * (g 1 * g 1) := by
    intro g
    unfold dotFn matVec
    simp only [Example.sum_two, c1, c2, c3, c4]
    ring
  have hw : Example.exTwo.WF := ⟨by decide, by decide, rfl, rfl, by decide, rfl, rfl, by decide⟩
  refine ⟨fun t ht => ⟨Real.sqrt_nonneg t, Real.mul_self_sqrt ht⟩, C42_sparse_op _ hw rfl, ?_, ?_, ?_, ?_, ?_⟩
  · intro i j i0 i1 j0 j1
    rcases (by omega : i = 0 ∨ i = 1) with rfl | rfl <;> rcases (by omega : j = 0 ∨ j = 1) with rfl | rfl <;> simp [c2, c3]
  · intro g
    rw [hform]
    nlinarith [mul_self_nonneg (g 0 + g 1), mul_self_nonneg (g 0), mul_self_nonneg (g 1)]
  · intro g
    rw [hform]
    unfold dotFn
    rw [Example.sum_two]
    nlinarith [mul_self_nonneg (g 0 - g 1)]
  · intro i i0 i1
    unfold matVec
    rw [Example.sum_two]
    rcases (by omega : i = 0 ∨ i = 1) with rfl | rfl
    · rw [c1, c2]; norm_num
    · rw [c3, c4]; norm_num
  · unfold dotFn
    rw [Example.sum_two]
    simp [vecAt]

end Linalg
