import Verif.Model.LinalgTest
import Verif.Props.Forms
import Verif.Props.DenseMore
import Verif.Props.SparseSub
import Verif.Props.SolverApi
import Verif.Proof.Io
import Verif.Props.SparseAccess
import Verif.Props.Lil
import Verif.Props.SparseSort
import Mathlib.Data.List.Sort
import Verif.Spec.Laplacian

/-!
# The test program of the library (C123)
-/

namespace Linalg
open Cpp LinalgTest

theorem Dense.Is.entry {α : Type} [Zero α] {D : Dense α} {m n : Int} {f : Int → Int → α} (h : D.Is m n f) (i j : Int) (h0 : 0 ≤ i) (h1 : i < m) (h2 : 0 ≤ j)
    (h3 : j < n) : D.entry i j = f i j := by
  unfold Dense.entry
  rw [h.get_eq i j h0 h1 h2 h3]

/-! ## Coordinate matrices -/

/-- **C123.**  The check of `test_coo` holds for every coordinate matrix that is not without rows or columns: the two ways to a dense matrix agree. -/
theorem C123_agree (C : Coo ℚ) (hC : C.WF) (h1 : 1 ≤ C.findSize.1) (h2 : 1 ≤ C.findSize.2) : agree C = .ok () := by
  obtain ⟨D, A, d1, d2, d3⟩ := C18_toDense_new C hC
  obtain ⟨A', a1, a2, a3, a4, a5, -⟩ := C17_toSparse C hC
  obtain rfl : A = A' := Except.ok.inj (d2.symm.trans a1)
  obtain ⟨E, e1, e2⟩ := C06_toDense_partial A a2 a5
  have hDr := d3.rows_eq
  have hDc := d3.cols_eq
  have hEr := e2.rows_eq
  have hEc := e2.cols_eq
  obtain ⟨F, f1, f2⟩ := (((C69_add_sub D E d3.wf e2.wf).1 (by rw [hDr, hEr]) (by rw [hDc, hEc])).2)
  have hFr := f2.rows_eq
  have hFc := f2.cols_eq
  have hs := (C71_sum F f2.wf).1 (by rw [hFr, hDr, a3]; exact h1) (by rw [hFc, hDc, a4]; exact h2)
  have hz : (∑ j ∈ Finset.Ico (0 : Int) F.cols, ∑ i ∈ Finset.Ico (0 : Int) F.rows, F.entry i j) = 0 := by
    refine Finset.sum_eq_zero (fun j hj => Finset.sum_eq_zero (fun i hi => ?_))
    rw [Finset.mem_Ico] at hi hj
    rw [f2.entry i j hi.1 (by omega) hj.1 (by omega), d3.entry i j hi.1 (by omega) hj.1 (by omega),
      e2.entry i j hi.1 (by omega) hj.1 (by omega), sub_self]
  rw [hz] at hs
  unfold agree
  rw [d1, ok_bind, d2, ok_bind, e1, ok_bind, f1, ok_bind, hs, ok_bind]
  exact cassert_true (by norm_num)

theorem LinalgTest.square_add (size : Int) (h : 0 ≤ size) (l : List (Int × Int × ℚ))
    (hl : ∀ e ∈ l, (0 ≤ e.1 ∧ e.1 < size) ∧ 0 ≤ e.2.1 ∧ e.2.1 < size) :
    ∃ C, Coo.square size = .ok C ∧ addEach C l = .ok ⟨size, size, true, l⟩ := by
  refine ⟨⟨size, size, true, []⟩, ?_, ?_⟩
  · unfold Coo.square Coo.ofSize
    rw [cassert_true h, ok_bind]
    rfl
  · exact Io.addAll_ok l _ (fun e he => ⟨(hl e he).1.1, (hl e he).2.1, fun _ => ⟨(hl e he).1.2, (hl e he).2.2⟩⟩)

theorem LinalgTest.sized_wf (size : Int) (h : 0 ≤ size) (l : List (Int × Int × ℚ))
    (hl : ∀ e ∈ l, (0 ≤ e.1 ∧ e.1 < size) ∧ 0 ≤ e.2.1 ∧ e.2.1 < size) : (⟨size, size, true, l⟩ : Coo ℚ).WF :=
  ⟨h, h, fun e he => ⟨(hl e he).1.1, (hl e he).2.1⟩, fun _ e he => ⟨(hl e he).1.2, (hl e he).2.2⟩⟩

/-- **C123.**  The larger random matrix passes whatever is drawn. -/
theorem C123_random (size : Int) (h : 1 ≤ size) (l : List (Int × Int × ℚ))
    (hl : ∀ e ∈ l, (0 ≤ e.1 ∧ e.1 < size) ∧ 0 ≤ e.2.1 ∧ e.2.1 < size) : cooRandom size l = .ok () := by
  obtain ⟨C, c1, c2⟩ := square_add size (by omega) l hl
  unfold cooRandom
  rw [c1, ok_bind, c2, ok_bind]
  exact C123_agree _ (sized_wf size (by omega) l hl) h h

/-- **C17.**  `ToSparse` stores exactly the positions that were added, zeros too. -/
theorem C17_stored {R : Type} [AddMonoid R] (C : Coo R) (hC : C.WF) :
    ∃ A, C.toSparse = .ok A ∧ ∀ i j, 0 ≤ i → i < A.rows → (A.Stored i j ↔ ∃ e ∈ C.entries, e.1 = i ∧ e.2.1 = j) := by
  have hs := hC.size_nonneg
  refine ⟨_, Coo.toSparse_eq C hC, fun i j h0 h1 => ?_⟩
  obtain ⟨k, rfl⟩ : ∃ k : Nat, i = k := ⟨i.toNat, by omega⟩
  have hk' : k < (cooRows C.findSize.1.toNat C.entries).length := by
    simp only [Csr.ofRows, cooRows, List.length_map, List.length_range] at h1 ⊢
    omega
  unfold Csr.Stored
  rw [Csr.row_ofRows _ _ k hk']
  simp only [cooRows, List.getElem_map, List.getElem_range, List.map_map]
  rw [show ((Prod.fst : Int × R → Int) ∘ fun c => (c, tripleCoef C.entries (k : Int) c)) = id from rfl, List.map_id, mem_pat]

/-- **C123.**  The random submatrix of `test_sparse`, whatever is drawn, with rows and columns drawn more than once: its size, and how many entries it
stores.  Those are, for each requested row, the requested columns at which something was drawn. -/
theorem C123_submatrix (size : Int) (h : 0 ≤ size) (l : List (Int × Int × ℚ)) (hl : ∀ e ∈ l, (0 ≤ e.1 ∧ e.1 < size) ∧ 0 ≤ e.2.1 ∧ e.2.1 < size)
    (rows cols : List Int) (hr : ∀ r ∈ rows, 0 ≤ r ∧ r < size) (hc : ∀ c ∈ cols, 0 ≤ c ∧ c < size) :
    sparseRandom size l rows cols = .ok (rows.length, cols.length,
      ((rows.map (fun r => (cols.toFinset.filter (fun c => ∃ e ∈ l, e.1 = r ∧ e.2.1 = c)).card)).sum : Nat)) := by
  obtain ⟨C, c1, c2⟩ := square_add size h l hl
  have hwf := sized_wf size h l hl
  obtain ⟨A, a1, a2, a3, a4, a5, -⟩ := C17_toSparse _ hwf
  obtain ⟨A', b1, b2⟩ := C17_stored _ hwf
  obtain rfl : A = A' := Except.ok.inj (a1.symm.trans b1)
  have e3 : A.rows = size := a3
  have e4 : A.cols = size := a4
  obtain ⟨S, s1, -, s3, s4, s5, s6⟩ := C07_repeats A a2 rows cols size.toNat (by omega) (fun r hm => by rw [e3]; exact hr r hm)
    (fun c hm => by rw [e4]; exact hc c hm)
  have hm : mkVec size (-1 : Int) = .ok (List.replicate size.toNat (-1)) := mkVec_int h _
  unfold sparseRandom
  rw [c1, ok_bind, hm, ok_bind, c2, ok_bind, a1, ok_bind, s1, ok_bind, ok_bind, s4, s5]
  refine congrArg (fun k : Int => (.ok ((rows.length : Int), (cols.length : Int), k) : Res (Int × Int × Int))) ?_
  show S.nnz = _
  rw [← C72_nnz S s3, s4, Int.toNat_natCast]
  congr 2
  refine List.ext_getElem (by simp) (fun p p1 p2 => ?_)
  simp only [List.length_map, List.length_range] at p1
  simp only [List.getElem_map, List.getElem_range]
  rw [s6 p p1, List.length_map]
  have hrow := hr rows[p] (List.getElem_mem p1)
  have hnd : ((A.row rows[p]).filter (fun e => e.1 ∈ cols)).map Prod.fst |>.Nodup :=
    (List.filter_sublist.map Prod.fst).nodup (a5 rows[p])
  rw [← List.length_map (f := Prod.fst), ← List.toFinset_card_of_nodup hnd]
  congr 1
  ext c
  rw [List.mem_toFinset, Finset.mem_filter, List.mem_toFinset, ← b2 rows[p] c hrow.1 (by rw [e3]; exact hrow.2)]
  unfold Csr.Stored
  simp only [List.mem_map, List.mem_filter, decide_eq_true_eq]
  constructor
  · rintro ⟨e, ⟨x1, x2⟩, rfl⟩
    exact ⟨x2, e, x1, rfl⟩
  · rintro ⟨x2, e, x1, rfl⟩
    exact ⟨e, ⟨x1, x2⟩, rfl⟩

/-! ## Products -/

/-- **C123.**  The products of `test_operator`: the coordinate, the dense and the sparse form of a matrix give the same result for every vector, and for the
transpose if it is square. -/
theorem C123_products {R : Type} [NonUnitalNonAssocSemiring R] (C : Coo R) (hC : C.WF) (hs : C.sizeSet = true) (x y : List R) (hx : (x.length : Int) = C.cols)
    (hy : (y.length : Int) = C.rows) :
    ∃ D A, C.toDense = .ok D ∧ C.toSparse = .ok A ∧
      (∃ z, C.mult x y = .ok z ∧ D.mult x y = .ok z ∧ A.mult x y = .ok z ∧
        VecIs z C.rows (fun i => ∑ j ∈ Finset.Ico 0 C.cols, C.coef i j * vecAt x j)) ∧
      (C.rows = C.cols → ∃ z, C.multAT x y = .ok z ∧ D.multAT x y = .ok z ∧ A.multAT x y = .ok z ∧
        VecIs z C.cols (fun j => ∑ i ∈ Finset.Ico 0 C.rows, C.coef i j * vecAt x i)) := by
  obtain ⟨D, A, d1, d2, d3⟩ := C18_toDense_new C hC
  obtain ⟨A', a1, a2, a3, a4, a5, a6⟩ := C17_toSparse C hC
  obtain rfl : A = A' := Except.ok.inj (d2.symm.trans a1)
  rw [Coo.findSize_sized hs] at a3 a4
  simp only at a3 a4
  have hDr : D.rows = C.rows := by rw [d3.rows_eq, a3]
  have hDc : D.cols = C.cols := by rw [d3.cols_eq, a4]
  refine ⟨D, A, d1, d2, ?_, fun hq => ?_⟩
  · obtain ⟨z, z1, z2⟩ := C18_mult_value C hC hs x y hx hy
    obtain ⟨u, u1, u2⟩ := C36_mult D d3.wf x y (by omega) (by omega)
    obtain ⟨v, v1, v2, v3⟩ := C01_mult A a2 x y (by omega) (by omega)
    have hu : u = z := by
      rw [hDr] at u2
      refine (u2.congr (fun i i0 i1 => ?_)).unique z2
      rw [hDc]
      refine Finset.sum_congr rfl (fun j hj => ?_)
      rw [Finset.mem_Ico] at hj
      rw [d3.entry i j i0 (by omega) hj.1 (by omega), a6]
    have hv : v = z := by
      refine VecIs.unique (n := C.rows) ⟨by rw [v2, a3], fun i i0 i1 => ?_⟩ z2
      rw [v3 i i0 (by omega)]
      unfold Csr.mulVec
      rw [a4]
      simp only [a6]
    subst hu
    subst hv
    exact ⟨v, z1, u1, v1, z2⟩
  · obtain ⟨z, z1, z2⟩ := C21_multAT_partial C hC hs hq x y (by omega) (by omega)
    obtain ⟨u, u1, u2⟩ := C36_multAT D d3.wf x y (by omega) (by omega)
    obtain ⟨v, v1, v2, v3⟩ := C02_multAT A a2 x y (by omega) (by omega)
    have hu : u = z := by
      rw [hDc] at u2
      refine (u2.congr (fun j j0 j1 => ?_)).unique z2
      rw [hDr]
      refine Finset.sum_congr rfl (fun i hi => ?_)
      rw [Finset.mem_Ico] at hi
      rw [d3.entry i j hi.1 (by omega) j0 (by omega), a6]
    have hv : v = z := by
      refine VecIs.unique (n := C.cols) ⟨by rw [v2, a4], fun i i0 i1 => ?_⟩ z2
      rw [v3 i i0 (by omega)]
      unfold Csr.tMulVec
      rw [a3]
      simp only [a6]
    subst hu
    subst hv
    exact ⟨v, z1, u1, v1, z2⟩

/-- The matrix of `test_operator`. -/
def LinalgTest.opCoo : Coo ℚ := ⟨3, 3, true, [(0, 0, 1), (0, 1, -2), (1, 1, 2), (1, 0, -3), (2, 2, 4)]⟩

/-- **C123.**  `test_operator` for every random vector. -/
theorem C123_operator (a b c : ℚ) :
    operator [a, b, c] = .ok (List.replicate 3 [a - 2 * b, -3 * a + 2 * b, 4 * c], List.replicate 3 [a - 3 * b, -2 * a + 2 * b, 4 * c]) := by
  have hC : opCoo.WF := by decide +kernel
  obtain ⟨D, A, d1, d2, ⟨z, z1, z2, z3, z4⟩, hT⟩ := C123_products opCoo hC rfl [a, b, c] [0, 0, 0] rfl rfl
  obtain ⟨t, t1, t2, t3, t4⟩ := hT rfl
  have e : (do let C ← Coo.ofSize 3 3; addEach C [(0, 0, (1 : ℚ)), (0, 1, -2), (1, 1, 2), (1, 0, -3), (2, 2, 4)]) = .ok opCoo := by decide +kernel
  have hz : z = [a - 2 * b, -3 * a + 2 * b, 4 * c] := by
    refine z4.unique ⟨rfl, fun i i0 i1 => ?_⟩
    have hi : i < 3 := i1
    obtain rfl | rfl | rfl : i = 0 ∨ i = 1 ∨ i = 2 := by omega
    all_goals
      refine congrArg Except.ok ?_
      have e : Finset.Ico (0 : Int) opCoo.cols = {0, 1, 2} := by decide +kernel
      rw [e]
      simp [Coo.coef, tripleCoef, opCoo, vecAt, rd]
      try ring
  have ht : t = [a - 3 * b, -2 * a + 2 * b, 4 * c] := by
    refine t4.unique ⟨rfl, fun i i0 i1 => ?_⟩
    have hi : i < 3 := i1
    obtain rfl | rfl | rfl : i = 0 ∨ i = 1 ∨ i = 2 := by omega
    all_goals
      refine congrArg Except.ok ?_
      have e : Finset.Ico (0 : Int) opCoo.rows = {0, 1, 2} := by decide +kernel
      rw [e]
      simp [Coo.coef, tripleCoef, opCoo, vecAt, rd]
      try ring
  rw [hz] at z1 z2 z3
  rw [ht] at t1 t2 t3
  obtain ⟨C0, c1, c2⟩ := bind_eq_ok.1 e
  unfold operator
  rw [c1, ok_bind, c2, ok_bind, d2, ok_bind, d1, ok_bind]
  simp only
  rw [z1, ok_bind, z2, ok_bind, z3, ok_bind, t1, ok_bind, t2, ok_bind, t3, ok_bind]
  rfl

/-! ## Lists of lists -/

theorem Lil.addSym_effect {L : Lil ℚ} (hL : L.WF) {i j : Int} (v : ℚ) (hi : 0 ≤ i) (hi' : i < L.rows) (hj : 0 ≤ j) (hj' : j < L.cols) (hs : L.rows = L.cols) :
    ∃ L', L.addSym i j v = .ok L' ∧ L'.WF ∧ L'.rows = L.rows ∧ L'.cols = L.cols ∧
      ∀ a b, L'.coef a b = L.coef a b + ((if i = a ∧ j = b then v else 0) + (if i ≠ j ∧ j = a ∧ i = b then v else 0)) := by
  obtain ⟨h1, e1⟩ := Lil.add_wf (v := v) hL hi hi' hj hj'
  obtain ⟨w1, r1, c1, f1⟩ := Lil.add_effect hL e1
  unfold Lil.addSym
  rw [e1, ok_bind]
  by_cases h : i = j
  · refine ⟨_, by rw [if_neg (by simp [h])], w1, r1, c1, fun a b => ?_⟩
    rw [f1, if_neg (c := i ≠ j ∧ j = a ∧ i = b) (fun x => x.1 h), add_zero]
  · obtain ⟨h2, e2⟩ := Lil.add_wf (v := v) w1 (i := j) (j := i) hj (by omega) hi (by omega)
    obtain ⟨w2, r2, c2, f2⟩ := Lil.add_effect w1 e2
    refine ⟨_, by rw [if_pos h]; exact e2, w2, by omega, by omega, fun a b => ?_⟩
    rw [f2, f1, add_assoc]
    simp only [ne_eq, h, not_false_eq_true, true_and]

theorem LinalgTest.foldlM_lil (n : Int) (f : Lil ℚ → Int → Res (Lil ℚ)) (g : Int → Int → Int → ℚ) (l : List Int)
    (hf : ∀ i ∈ l, ∀ L : Lil ℚ, L.WF → L.rows = n → L.cols = n →
      ∃ L', f L i = .ok L' ∧ L'.WF ∧ L'.rows = n ∧ L'.cols = n ∧ ∀ a b, L'.coef a b = L.coef a b + g i a b)
    (L : Lil ℚ) (hL : L.WF) (hr : L.rows = n) (hc : L.cols = n) :
    ∃ L', l.foldlM f L = .ok L' ∧ L'.WF ∧ L'.rows = n ∧ L'.cols = n ∧ ∀ a b, L'.coef a b = L.coef a b + (l.map (fun i => g i a b)).sum := by
  induction l generalizing L with
  | nil => exact ⟨L, rfl, hL, hr, hc, by simp⟩
  | cons i l ih =>
    obtain ⟨M, m1, m2, m3, m4, m5⟩ := hf i List.mem_cons_self L hL hr hc
    obtain ⟨N, n1, n2, n3, n4, n5⟩ := ih (fun k hk => hf k (List.mem_cons_of_mem _ hk)) M m2 m3 m4
    refine ⟨N, by rw [List.foldlM_cons, m1]; exact n1, n2, n3, n4, fun a b => ?_⟩
    rw [n5, m5, List.map_cons, List.sum_cons, add_assoc]

/-- **C123.**  The large matrix of `test_lil`: what the loops have added at each position, for every size. -/
theorem C123_lil_large (size : Nat) :
    ∃ L, lilLarge size = .ok L ∧ L.WF ∧ L.rows = size ∧ L.cols = size ∧ ∀ a b : Int, 0 ≤ a → a < size → 0 ≤ b → b < size →
      L.coef a b = (a : ℚ) * b * (if a = b then 1 else 2) * ((if a % 2 = 0 then 1 else 0) + (if b % 2 = 0 then 1 else 0)) := by
  have hsz : (Lil.square (size : Int) : Res (Lil ℚ)) = .ok ⟨size, size, true, List.replicate size []⟩ := by
    unfold Lil.square Lil.ofSize
    rw [cassert_true (by omega), ok_bind, ok_bind, mkVec_nat, ok_bind]
  have w0 : (⟨size, size, true, List.replicate size []⟩ : Lil ℚ).WF :=
    ⟨rfl, by simp, by simp, fun r hr e he => by rw [List.eq_of_mem_replicate hr] at he; simp at he⟩
  have z0 : ∀ a b, (⟨size, size, true, List.replicate size []⟩ : Lil ℚ).coef a b = 0 := by
    obtain ⟨-, -, h⟩ := C24_history (R := ℚ) size size _ _ [] hsz rfl
    exact fun a b => by rw [h]; rfl
  let g : Int → Int → Int → Int → ℚ := fun i j a b => if j % 2 = 0 then
      ((if i = a ∧ j = b then (i : ℚ) * j else 0) + (if i ≠ j ∧ j = a ∧ i = b then (i : ℚ) * j else 0))
      + ((if j = a ∧ i = b then (i : ℚ) * j else 0) + (if j ≠ i ∧ i = a ∧ j = b then (i : ℚ) * j else 0)) else 0
  obtain ⟨L, l1, l2, l3, l4, l5⟩ := foldlM_lil size _ (fun i a b => ((iota size).map (fun j => g i j a b)).sum) (iota size)
    (fun i hi L hL hr hc => foldlM_lil size
      (fun L j => if j % 2 = 0 then do
        let L ← L.addSym i j ((i : ℚ) * (j : ℚ))
        L.addSym j i ((i : ℚ) * (j : ℚ))
      else .ok L) (g i) (iota size) (fun j hj L hL hr hc => by
      have hi := mem_iota.1 hi
      have hj := mem_iota.1 hj
      by_cases he : j % 2 = 0
      · obtain ⟨M, m1, m2, m3, m4, m5⟩ := Lil.addSym_effect hL ((i : ℚ) * j) hi.1 (by omega) hj.1 (by omega) (by omega)
        obtain ⟨N, n1, n2, n3, n4, n5⟩ := Lil.addSym_effect m2 ((i : ℚ) * j) hj.1 (by omega) hi.1 (by omega) (by omega)
        refine ⟨N, by rw [if_pos he, m1, ok_bind, n1], n2, by omega, by omega, fun a b => ?_⟩
        rw [n5, m5, add_assoc]
        simp only [g]
        rw [if_pos he]
      · refine ⟨L, by rw [if_neg he], hL, hr, hc, fun a b => ?_⟩
        simp only [g]
        rw [if_neg he, add_zero]) L hL hr hc) _ w0 rfl rfl
  refine ⟨L, ?_, l2, l3, l4, fun a b a0 a1 b0 b1 => ?_⟩
  · unfold lilLarge
    rw [hsz, ok_bind]
    exact l1
  · rw [l5, z0, zero_add, sum_iota]
    simp only [sum_iota]
    have h1 : ∀ i j : Int, g i j a b = (if i = a then (if j = b then (if b % 2 = 0 then (a : ℚ) * b * (if a = b then 1 else 2) else 0) else 0) else 0)
        + (if i = b then (if j = a then (if a % 2 = 0 then (a : ℚ) * b * (if a = b then 1 else 2) else 0) else 0) else 0) := by
      intro i j
      simp only [g]
      by_cases x1 : i = a <;> by_cases x2 : j = b <;> by_cases x3 : i = b <;> by_cases x4 : j = a <;> simp_all <;> (try split) <;> (try ring) <;>
        (try omega)
    simp only [h1, Finset.sum_add_distrib]
    rw [Finset.sum_eq_single a (fun i _ h => by simp [h]) (fun h => absurd (Finset.mem_Ico.2 ⟨a0, a1⟩) h),
      Finset.sum_eq_single b (fun i _ h => by simp [h]) (fun h => absurd (Finset.mem_Ico.2 ⟨b0, b1⟩) h)]
    simp only [if_true]
    rw [Finset.sum_eq_single b (fun i _ h => by simp [h]) (fun h => absurd (Finset.mem_Ico.2 ⟨b0, b1⟩) h),
      Finset.sum_eq_single a (fun i _ h => by simp [h]) (fun h => absurd (Finset.mem_Ico.2 ⟨a0, a1⟩) h)]
    simp only [if_true]
    by_cases ha : a % 2 = 0 <;> by_cases hb : b % 2 = 0 <;> simp only [ha, hb, if_true, if_false] <;> ring

/-- The three matrices of `test_lil`, with `k` at the corner. -/
def LinalgTest.lilDense (k : ℚ) : Dense ℚ := ⟨3, 3, [k, 2, 3, 2, 0, 0, 3, 0, 0]⟩

/-- **C123.**  The rest of `test_lil`, however the rows are sorted: the dense and the sparse forms hold the same matrices, and of `lil_zero` the entry above the
tolerance is left. -/
theorem C123_lil (srt : List (Int × ℚ) → List (Int × ℚ)) (hs : IsRowSort srt) :
    ∃ S Z, lil srt = .ok (S, [lilDense 1, lilDense 2, lilDense 3], Z) ∧ S.length = 3 ∧
      (∀ k (h : k < S.length), S[k].WF ∧ S[k].NoDup ∧ S[k].toDense = .ok (lilDense (k + 1))) ∧
      Z.rows = 100 ∧ Z.cols = 100 ∧ ∀ k, Z.entries.getD k [] = if k = 2 then [(1, 1 / 10 ^ 5)] else [] := by
  have key : ∀ (L : Lil ℚ) (k : ℚ), L.WF → L.rows = 3 → L.cols = 3 → (∀ i j, 0 ≤ i → i < 3 → 0 ≤ j → j < 3 → L.coef i j = (lilDense k).entry i j) →
      ∃ A L', L.toSparse srt = .ok (A, L') ∧ A.WF ∧ A.NoDup ∧ A.toDense = .ok (lilDense k) ∧ L'.toDense = .ok (lilDense k) := by
    intro L k hL hr hc hco
    obtain ⟨A, L', a1, a2, a3, a4, a5, a6, ⟨a7, a9, a10⟩, a8⟩ := C24_toSparse srt hs L hL
    have hn : A.NoDup := fun i => (a5 i).imp (fun h => ne_of_lt h)
    have hk : (lilDense k).WF := ⟨by simp [lilDense], by simp [lilDense], by simp [lilDense]⟩
    have hk' : (lilDense k).Is 3 3 (lilDense k).entry := hk.is_entry
    obtain ⟨E, e1, e2⟩ := C06_toDense_partial A a2 hn
    rw [a3, a4, hr, hc] at e2
    obtain rfl : E = lilDense k := (e2.congr (fun i j i0 i1 j0 j1 => by rw [a6, hco i j i0 i1 j0 j1])).unique hk'
    obtain ⟨F, f1, f2⟩ := C24_toDense L' a7 Dense.empty
    rw [a9, a10, hr, hc] at f2
    obtain rfl : F = lilDense k := (f2.congr (fun i j i0 i1 j0 j1 => by rw [a8, hco i j i0 i1 j0 j1])).unique hk'
    exact ⟨A, L', a1, a2, hn, e1, f1⟩
  let L1 : Lil ℚ := ⟨3, 3, true, [[(2, 3), (1, 2), (0, 1)], [(0, 2)], [(0, 3)]]⟩
  let L2 : Lil ℚ := ⟨3, 3, true, [[(0, 1), (2, 3), (1, 2), (0, 1)], [(0, 2)], [(0, 3)]]⟩
  let L3 : Lil ℚ := ⟨3, 3, true, [[(0, 1), (0, 1), (2, 3), (1, 2), (0, 1)], [(0, 2)], [(0, 3)]]⟩
  have run : (do
      let L ← (Lil.ofSize 3 3 : Res (Lil ℚ))
      let L ← L.addSym 0 0 1
      let L ← L.addSym 0 1 2
      L.addSym 0 2 3) = .ok L1 := by decide +kernel
  have run2 : L1.addSym 0 0 1 = .ok L2 := by decide +kernel
  have run3 : L2.addSym 0 0 1 = .ok L3 := by decide +kernel
  have co : ∀ i j : Int, 0 ≤ i → i < 3 → 0 ≤ j → j < 3 → L1.coef i j = (lilDense 1).entry i j ∧ L2.coef i j = (lilDense 2).entry i j ∧
      L3.coef i j = (lilDense 3).entry i j := by
    intro i j i0 i1 j0 j1
    obtain rfl | rfl | rfl : i = 0 ∨ i = 1 ∨ i = 2 := by omega
    all_goals obtain rfl | rfl | rfl : j = 0 ∨ j = 1 ∨ j = 2 := by omega
    all_goals decide +kernel
  obtain ⟨A1, M1, p1, p2, p3, p4, p5⟩ := key L1 1 (by decide +kernel) rfl rfl (fun i j h0 h1 h2 h3 => (co i j h0 h1 h2 h3).1)
  obtain ⟨A2, M2, q1, q2, q3, q4, q5⟩ := key L2 2 (by decide +kernel) rfl rfl (fun i j h0 h1 h2 h3 => (co i j h0 h1 h2 h3).2.1)
  obtain ⟨A3, M3, r1, r2, r3, r4, r5⟩ := key L3 3 (by decide +kernel) rfl rfl (fun i j h0 h1 h2 h3 => (co i j h0 h1 h2 h3).2.2)
  let Z : Lil ℚ := ⟨100, 100, true, [[], [], [(1, 1 / 10 ^ 5)]] ++ List.replicate 97 []⟩
  have runZ : (do
      let Z ← (Lil.square 100 : Res (Lil ℚ))
      let Z ← Z.add 2 2 (1 / 10 ^ 8)
      let Z ← Z.add 2 1 (1 / 10 ^ 5)
      (.ok (Z.eliminateZeros (1 / 10 ^ 6)) : Res (Lil ℚ))) = .ok Z := by decide +kernel
  refine ⟨[A1, A2, A3], Z, ?_, rfl, ?_, rfl, rfl, ?_⟩
  · obtain ⟨x0, y0, run⟩ := bind_eq_ok.1 run
    obtain ⟨x1, y1, run⟩ := bind_eq_ok.1 run
    obtain ⟨x2, y2, run⟩ := bind_eq_ok.1 run
    obtain ⟨z0, w0, runZ⟩ := bind_eq_ok.1 runZ
    obtain ⟨z1, w1, runZ⟩ := bind_eq_ok.1 runZ
    obtain ⟨z2, w2, runZ⟩ := bind_eq_ok.1 runZ
    unfold lil
    rw [y0, ok_bind, y1, ok_bind, y2, ok_bind, run, ok_bind, run2, ok_bind, run3, ok_bind, p1, ok_bind, q1, ok_bind, r1, ok_bind, p5, ok_bind, q5, ok_bind, r5,
      ok_bind, w0, ok_bind, w1, ok_bind, w2, ok_bind, Except.ok.inj runZ]
  · intro k h
    obtain rfl | rfl | rfl : k = 0 ∨ k = 1 ∨ k = 2 := by simp at h; omega
    · exact ⟨p2, p3, by rw [show ((0 : Nat) : ℚ) + 1 = 1 by norm_num]; exact p4⟩
    · exact ⟨q2, q3, by rw [show ((1 : Nat) : ℚ) + 1 = 2 by norm_num]; exact q4⟩
    · exact ⟨r2, r3, by rw [show ((2 : Nat) : ℚ) + 1 = 3 by norm_num]; exact r4⟩
  · intro k
    simp only [Z]
    match k with
    | 0 => rfl
    | 1 => rfl
    | 2 => rfl
    | k + 3 =>
      rw [if_neg (by omega)]
      show (List.replicate 97 ([] : List (Int × ℚ))).getD k [] = []
      rw [List.getD_eq_getElem?_getD, List.getElem?_replicate]
      split <;> rfl

/-! ## Fixed runs -/

/-- **C123.**  The fixed part of `test_coo` passes its checks; what it prints: the two products, what is left after the eliminations (an entry equal to zero goes,
then those below the tolerance), and the last two matrices. -/
theorem C123_coo :
    ∃ C0 C1 D0 D1, cooFixed = .ok (([3, 9, 3, 0, 3, 0, 0, 0, 3, 0], [1, 11, 6, 0, 0, 0, 0, 0, 0, 3]), (C0, C1), (D0, D1)) ∧
      C0.entries = [(0, 0, 1), (0, 2, 2), (2, 0, 2), (0, 3, 3), (3, 0, 3)] ∧ C1.entries = [(0, 3, 3), (3, 0, 3)] ∧
      (D0.rows, D0.cols) = (10, 10) ∧ (D1.rows, D1.cols) = (10, 10) ∧
      (∀ i < 10, ∀ j < 10, D0.entry (i : Nat) (j : Nat) = if (i, j) = (1, 3) ∨ (i, j) = (8, 5) then -1 else if (i, j) = (3, 1) ∨ (i, j) = (5, 8) then 1 else 0) ∧
      ∀ i < 10, ∀ j < 10, D1.entry (i : Nat) (j : Nat) = if (i, j) = (1, 3) ∨ (i, j) = (8, 5) then -3 else if (i, j) = (3, 1) ∨ (i, j) = (5, 8) then 6 else 0 := by
  refine ⟨⟨4, 4, true, [(0, 0, 1), (0, 2, 2), (2, 0, 2), (0, 3, 3), (3, 0, 3)]⟩, ⟨4, 4, true, [(0, 3, 3), (3, 0, 3)]⟩,
    Dense.ofFn 10 10 (fun i j => if (i, j) = (1, 3) ∨ (i, j) = (8, 5) then -1 else if (i, j) = (3, 1) ∨ (i, j) = (5, 8) then 1 else 0),
    Dense.ofFn 10 10 (fun i j => if (i, j) = (1, 3) ∨ (i, j) = (8, 5) then -3 else if (i, j) = (3, 1) ∨ (i, j) = (5, 8) then 6 else 0), ?_, rfl, rfl, rfl, rfl, ?_, ?_⟩
  · decide +kernel
  · decide +kernel
  · decide +kernel

/-- **C123.**  The first checks of `test_sparse`, and its diagonal matrix. -/
theorem C123_sparse_empty : sparseEmpty = .ok ⟨3, 3, [0, 1, 2, 3], [0, 1, 2], [3, 3, 3]⟩ := by decide +kernel

/-- **C123.**  The results that `test_sparse` prints beside each other agree: the transposes, the product with the transpose and that with the transposed matrix, the
sparse and the dense product, the product and its transpose. -/
theorem C123_sparse_pairs :
    ∃ AT AT1 AT2 ba baAT C C2 ab abT, sparsePairs = .ok ((AT, AT1, AT2), (ba, baAT), (C, C2), (ab, abT)) ∧ AT.WF ∧ C.WF ∧
      AT.toDense = .ok AT1 ∧ AT2 = AT1 ∧ (∃ A, matA = .ok A ∧ A.WF ∧ ∀ i < 3, ∀ j < 3, AT1.entry (i : Nat) (j : Nat) = A.coef j i) ∧
      baAT = ba ∧ C.toDense = .ok C2 ∧ ab.transpose = .ok abT ∧
      ba.data = [12, 25, 55 / 2, 17, 32, 33] ∧ ab.data = [9, 7 / 2, 41, 13, 7, 51] ∧
      C2.data = [11, 21 / 4, 63 / 4, 15 / 4, 35 / 4, 99 / 4, 0, 0, 121 / 4] := by
  refine ⟨⟨3, 3, [0, 2, 4, 5], [0, 1, 0, 2, 2], [3 / 2, 7 / 2, 5 / 2, 9 / 2, 11 / 2]⟩, ⟨3, 3, [3 / 2, 5 / 2, 0, 7 / 2, 0, 0, 0, 9 / 2, 11 / 2]⟩,
    ⟨3, 3, [3 / 2, 5 / 2, 0, 7 / 2, 0, 0, 0, 9 / 2, 11 / 2]⟩, ⟨3, 2, [12, 25, 55 / 2, 17, 32, 33]⟩, ⟨3, 2, [12, 25, 55 / 2, 17, 32, 33]⟩,
    ⟨3, 3, [0, 2, 4, 7], [0, 1, 0, 1, 0, 1, 2], [11, 15 / 4, 21 / 4, 35 / 4, 63 / 4, 99 / 4, 121 / 4]⟩,
    ⟨3, 3, [11, 21 / 4, 63 / 4, 15 / 4, 35 / 4, 99 / 4, 0, 0, 121 / 4]⟩, ⟨3, 2, [9, 7 / 2, 41, 13, 7, 51]⟩, ⟨2, 3, [9, 13, 7 / 2, 7, 41, 51]⟩,
    ?_, ?_, ?_, ?_, rfl, ?_, rfl, ?_, ?_, rfl, rfl, rfl⟩
  · set_option synthInstance.maxSize 1000 in decide +kernel
  · decide +kernel
  · decide +kernel
  · decide +kernel
  · exact ⟨⟨3, 3, [0, 2, 3, 5], [0, 1, 0, 1, 2], [3 / 2, 5 / 2, 7 / 2, 9 / 2, 11 / 2]⟩, by decide +kernel, by decide +kernel, by decide +kernel⟩
  · decide +kernel
  · decide +kernel

/-- Insertion sort meets the contract of `std::sort`. -/
theorem isSort_insertion : IsSort (fun lt l => l.insertionSort (fun a b => lt b a = false)) := by
  intro key l
  refine ⟨List.perm_insertionSort _ _, ?_⟩
  have : Std.Total (fun a b : Int => decide (key b < key a) = false) := ⟨fun a b => by simp; omega⟩
  have : IsTrans Int (fun a b : Int => decide (key b < key a) = false) := ⟨fun a b c h1 h2 => by simp at *; omega⟩
  refine (List.pairwise_insertionSort (fun a b : Int => decide (key b < key a) = false) l).imp ?_
  intro a b h
  simpa using h

/-- **C123.**  The submatrix, the scalar operations and the eliminations of `test_sparse`, however the rows are sorted by `SortIndices`. -/
theorem C123_sparse_rest (srt : Csr.Sorter) (hs : IsSort srt) :
    ∃ S, sparseRest srt = .ok (⟨2, 2, [0, 1, 2], [0, 1], [3 / 2, 11 / 2]⟩, S,
      [⟨3, 3, [0, 2, 3, 5], [0, 1, 0, 1, 2], [3, 5, 7, 9, 11]⟩, ⟨3, 3, [0, 2, 3, 5], [0, 1, 0, 1, 2], [3 / 4, 5 / 4, 7 / 4, 9 / 4, 11 / 4]⟩,
        ⟨3, 3, [0, 2, 3, 5], [0, 1, 0, 1, 2], [-1, -1, -1, -1, -1]⟩],
      [⟨3, 3, [0, 2, 3, 5], [0, 1, 0, 1, 2], [3 / 2, 0, 7 / 2, 0, 11 / 2]⟩, ⟨3, 3, [0, 2, 3, 5], [0, 1, 0, 1, 2], [3 / 2, 5 / 2, 7 / 2, 0, 0]⟩,
        ⟨3, 3, [0, 2, 3, 5], [0, 1, 0, 1, 2], [1, 0, 0, 9 / 2, 11 / 2]⟩]) ∧ S = ⟨2, 2, [0, 2, 4], [0, 1, 0, 1], [2, 1, 2, 1]⟩ := by
  have hw : (⟨2, 2, [0, 2, 4], [1, 0, 1, 0], [1, 2, 1, 2]⟩ : Csr ℚ).WF := by decide +kernel
  have hn : (⟨2, 2, [0, 2, 4], [1, 0, 1, 0], [1, 2, 1, 2]⟩ : Csr ℚ).NoDup := by rw [hw.noDup_iff]; decide +kernel
  have e : (⟨2, 2, [0, 2, 4], [1, 0, 1, 0], [1, 2, 1, 2]⟩ : Csr ℚ).sortIndices srt = .ok ⟨2, 2, [0, 2, 4], [0, 1, 0, 1], [2, 1, 2, 1]⟩ := by
    rw [(C05_sortIndices_unique srt (fun lt l => l.insertionSort (fun a b => lt b a = false)) hs isSort_insertion _ hw hn).1]
    decide +kernel
  refine ⟨_, ?_, rfl⟩
  have e0 : (Csr.ofArrays [0, 2, 4] [1, 0, 1, 0] [1, 2, 1, 2] 2 2 : Res (Csr ℚ)) = .ok ⟨2, 2, [0, 2, 4], [1, 0, 1, 0], [1, 2, 1, 2]⟩ := by decide +kernel
  have e1 : matA = .ok ⟨3, 3, [0, 2, 3, 5], [0, 1, 0, 1, 2], [3 / 2, 5 / 2, 7 / 2, 9 / 2, 11 / 2]⟩ := by decide +kernel
  unfold sparseRest
  rw [e1, ok_bind]
  have e2 : (⟨3, 3, [0, 2, 3, 5], [0, 1, 0, 1, 2], [3 / 2, 5 / 2, 7 / 2, 9 / 2, 11 / 2]⟩ : Csr ℚ).getSubMatrixMarker [0, 2] [0, 2] [-1, -1, -1]
      = .ok (⟨2, 2, [0, 1, 2], [0, 1], [3 / 2, 11 / 2]⟩, [-1, -1, -1]) := by decide +kernel
  rw [e2, ok_bind, e0, ok_bind, e, ok_bind]
  decide +kernel

/-- **C123.**  `test_dense`: the product with the ones, the four products and the scaled one, and the matrix after each change. -/
theorem C123_dense :
    ∃ P a1 a2 a3 a4 a5 a6, dense = .ok ([10, 2, 4, 6, 8], P, [a1, a2, a3, a4, a5, a6]) ∧
      P.map Dense.data = [[1, 0, 3, 0, 6, 0, 2, 0, 6, 0, 8, 0], [10, 0, 0, 12, 20, 0, 0, 16], [5, 0, 15, 0, 50, 0], [1, 0, 2, 0, 0, 6, 0, 8, 3, 0, 6, 0],
        [5, 0, 10, 0, 0, 30, 0, 40, 15, 0, 30, 0]] ∧
      P.map (fun D => (D.rows, D.cols)) = [(3, 4), (2, 4), (3, 2), (4, 3), (4, 3)] ∧
      a1.data = [0, 1, 2, 3, 4, -20, 1, 0, 0, 0, 2, 0, 2, 0, 0, 3, 0, 0, 3, 0, 4, 0, 0, 0, 4] ∧
      (∀ i < 5, ∀ j < 5, a2.entry (i : Nat) (j : Nat) = if i = 1 ∨ j = 1 then 5 else a1.entry i j) ∧
      (∀ i < 5, ∀ j < 5, a3.entry (i : Nat) (j : Nat) = if 3 ≤ i then -1 / 2 else a2.entry i j) ∧
      (∀ i < 5, ∀ j < 5, a4.entry (i : Nat) (j : Nat) = if 3 ≤ j then -19 / 2 else a3.entry i j) ∧
      (∀ i < 5, ∀ j < 5, a5.entry (i : Nat) (j : Nat) = if 2 ≤ i ∧ 2 ≤ j then 100 else a4.entry i j) ∧
      ∀ i < 5, ∀ j < 5, a6.entry (i : Nat) (j : Nat) = a5.entry j i := by
  let f1 : Int → Int → ℚ := fun i j => vecAt ([0, 1, 2, 3, 4, -20, 1, 0, 0, 0, 2, 0, 2, 0, 0, 3, 0, 0, 3, 0, 4, 0, 0, 0, 4] : List ℚ) (i + 5 * j)
  let f2 : Int → Int → ℚ := fun i j => if i = 1 ∨ j = 1 then 5 else f1 i j
  let f3 : Int → Int → ℚ := fun i j => if 3 ≤ i then -1 / 2 else f2 i j
  let f4 : Int → Int → ℚ := fun i j => if 3 ≤ j then -19 / 2 else f3 i j
  let f5 : Int → Int → ℚ := fun i j => if 2 ≤ i ∧ 2 ≤ j then 100 else f4 i j
  refine ⟨[⟨3, 4, [1, 0, 3, 0, 6, 0, 2, 0, 6, 0, 8, 0]⟩, ⟨2, 4, [10, 0, 0, 12, 20, 0, 0, 16]⟩, ⟨3, 2, [5, 0, 15, 0, 50, 0]⟩,
    ⟨4, 3, [1, 0, 2, 0, 0, 6, 0, 8, 3, 0, 6, 0]⟩, ⟨4, 3, [5, 0, 10, 0, 0, 30, 0, 40, 15, 0, 30, 0]⟩],
    Dense.ofFn 5 5 f1, Dense.ofFn 5 5 f2, Dense.ofFn 5 5 f3, Dense.ofFn 5 5 f4, Dense.ofFn 5 5 f5, Dense.ofFn 5 5 (fun i j => f5 j i), ?_, rfl, rfl, ?_, ?_, ?_, ?_, ?_, ?_⟩
  all_goals decide +kernel

/-- **C123.**  `test_blockoperator`: an empty operator gives zero, the full one and its transpose twos, the upper triangular one twos and ones, its transpose ones
and twos. -/
theorem C123_blockOperator : blockOperator = .ok [[0, 0, 0, 0], [2, 2, 2, 2], [2, 2, 2, 2], [2, 2, 1, 1], [1, 1, 2, 2]] := by decide +kernel

/-- **C123.**  `test_timer` prints the three intervals and their sum, whatever the clock shows. -/
theorem C123_timer (t0 t1 t2 t3 : ℚ) : timer t0 t1 t2 t3 = .ok ([t1 - t0, t2 - t1, t3 - t2], t3 - t0) := by
  have e : (Util.Timer.total ((((Util.Timer.new false t0).click t0).click t1).click t2 |>.click t3)) = .ok (t3 - t0) := by
    refine (?_ : _ = .ok ((t1 - t0) + (t2 - t1) + (t3 - t2))).trans (by congr 1; ring)
    simp [Util.Timer.total, Util.Timer.new, Util.Timer.click, rd]
  unfold timer
  simp only
  rw [e]
  rfl

/-- **C123.**  The three parts of `test_argparser` pass their checks. -/
theorem C123_args : argsGood = .ok () ∧ argsBad = .ok () ∧ argsHelp = .ok () := by decide +kernel

/-- **C123.**  What `test_parser` reads back is what it wrote; the lists with the flag for symmetric matrices are read with the mirrored entries. -/
theorem C123_parser :
    parser = .ok (([1, 2, 3], [1, 2, 3]),
      [⟨3, 3, [0, 1, 3, 5], [0, 1, 2, 0, 2], [1, 1, 1, 1, 1]⟩, ⟨3, 3, [0, 1, 3, 5], [0, 1, 2, 0, 2], [1, 2, 2, 3, 3]⟩,
        ⟨3, 3, [0, 1, 3, 5], [0, 1, 2, 0, 2], [1, 2, 2, 3, 3]⟩],
      [⟨3, 3, [0, 2, 4, 7], [0, 2, 1, 2, 1, 0, 2], [1, 1, 1, 1, 1, 1, 1]⟩, ⟨3, 3, [0, 2, 4, 7], [0, 2, 1, 2, 1, 0, 2], [1, 3, 2, 2, 2, 3, 3]⟩],
      ⟨3, 3, [0, 3, 4, 6], [0, 1, 2, 2, 1, 0], [1, 1, 1, 1, 1, 1]⟩) := by decide +kernel

end Linalg
