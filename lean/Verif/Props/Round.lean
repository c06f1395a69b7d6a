import Verif.Proof.Round
import Verif.Props.Order
import Verif.Props.SparseVector
import Mathlib.Analysis.Real.Sqrt

/-!
# Rounding errors of the products

The functions are run on the reals with rounded operations.
-/

namespace Linalg
open Cpp

/-- The same rows with other values: every value is changed by at most the given factor of itself. -/
structure Csr.Near (A B : Csr ℝ) (bound : Int → ℝ) : Prop where
  rows_eq : B.rows = A.rows
  cols_eq : B.cols = A.cols
  indptr_eq : B.indptr = A.indptr
  indices_eq : B.indices = A.indices
  near : ∀ i, List.Forall₂ (fun a b => b.1 = a.1 ∧ |b.2 - a.2| ≤ bound i * |a.2|) (A.row i) (B.row i)

theorem forall2_zipWith {n : Nat} {r : Rounding} (l : List (Int × ℝ)) (ts : List ℝ) (hl : ts.length = l.length) (h : ∀ t ∈ ts, r.Fac n t) :
    List.Forall₂ (fun a b => b.1 = a.1 ∧ |b.2 - a.2| ≤ r.gamma n * |a.2|) l (List.zipWith (fun e t => (e.1, e.2 * t)) l ts) := by
  induction l generalizing ts with
  | nil => simp
  | cons e l ih =>
    cases ts with
    | nil => simp at hl
    | cons t ts =>
      rw [List.zipWith_cons_cons]
      exact List.Forall₂.cons ⟨rfl, (h t (by simp)).abs_sub e.2⟩ (ih ts (by simpa using hl) (fun t ht => h t (by simp [ht])))

/-- **C104.**  The rounded product is the exact product with a matrix whose entries differ from those of `A` by a factor of at most
`(1 + u)^k - 1`, where `k` is the number of entries of the row. -/
theorem C104_mult_backward (r : Rounding) (A : Csr ℝ) (hA : A.WF) (x y : List ℝ)
    (hx : (x.length : Int) = A.cols) (hy : (y.length : Int) = A.rows) :
    ∃ y' B, @Csr.mult ℝ _ r.add r.mul A x y = .ok y' ∧ B.WF ∧ A.Near B (fun i => r.gamma (A.row i).length) ∧ B.mult x y = .ok y' := by
  obtain ⟨n, rs, hn, hrs, rfl⟩ := hA.exists_rows
  have hy' : y.length = rs.length := by simpa [Csr.ofRows] using hy
  have hrun := @mult_order ℝ _ r.add r.mul n rs hrs x y hx hy'
  have hfac : ∀ q : List (Int × ℝ), ∃ ts : List ℝ, ts.length = q.length ∧ (∀ t ∈ ts, r.Fac q.length t) ∧
      @addUp ℝ _ r.add (q.map (fun e => r.rnd (e.2 * vecAt x e.1))) = addUp ((List.zipWith (fun e t => (e.1, e.2 * t)) q ts).map (fun e => e.2 * vecAt x e.1)) := by
    intro q
    obtain ⟨ts, h1, h2, h3, -⟩ := r.dot_fac (q.map (fun e => (e.2, vecAt x e.1)))
    rw [List.length_map] at h1 h2
    refine ⟨ts, h1, h2, ?_⟩
    rw [List.map_map] at h3
    have e : (fun p : ℝ × ℝ => r.rnd (p.1 * p.2)) ∘ (fun e : Int × ℝ => (e.2, vecAt x e.1)) = fun e => r.rnd (e.2 * vecAt x e.1) := rfl
    rw [e] at h3
    rw [h3, addUp, ← List.sum_eq_foldl, List.map_zipWith, List.zipWith_map_left]
  choose T hT1 hT2 hT3 using hfac
  let rs' := rs.map (fun q => List.zipWith (fun e t => (e.1, e.2 * t)) q (T q))
  have hrs' : ∀ q ∈ rs', ∀ e ∈ q, 0 ≤ e.1 ∧ e.1 < n := by
    intro q hq e he
    obtain ⟨q0, hq0, rfl⟩ := List.mem_map.1 hq
    obtain ⟨k, hk, rfl⟩ := List.mem_iff_getElem.1 he
    rw [List.getElem_zipWith]
    simp only [List.length_zipWith] at hk
    have := hrs q0 hq0 _ (List.getElem_mem (l := q0) (n := k) (by omega))
    exact this
  have hrow : ∀ i : Int, (Csr.ofRows n rs').row i = List.zipWith (fun e t => (e.1, e.2 * t)) ((Csr.ofRows n rs).row i) (T ((Csr.ofRows n rs).row i)) := by
    intro i
    by_cases h0 : 0 ≤ i ∧ i < rs.length
    · obtain ⟨k, rfl⟩ : ∃ k : Nat, i = k := ⟨i.toNat, by omega⟩
      have hk : k < rs.length := by omega
      rw [Csr.row_ofRows n rs k hk, Csr.row_ofRows n rs' k (by simpa [rs'] using hk)]
      simp [rs']
    · have e1 : (Csr.ofRows n rs).row i = [] := by
        by_contra hne
        obtain ⟨e, he⟩ := List.exists_mem_of_ne_nil _ hne
        have := Csr.mem_row_ok (Csr.wf_ofRows hn hrs) he
        exact h0 ⟨this.1, by simpa [Csr.ofRows] using this.2.1⟩
      have e2 : (Csr.ofRows n rs').row i = [] := by
        by_contra hne
        obtain ⟨e, he⟩ := List.exists_mem_of_ne_nil _ hne
        have := Csr.mem_row_ok (Csr.wf_ofRows hn hrs') he
        exact h0 ⟨this.1, by simpa [Csr.ofRows, rs'] using this.2.1⟩
      rw [e1, e2]
      rfl
  have hlen : ∀ q, (List.zipWith (fun (e : Int × ℝ) t => (e.1, e.2 * t)) q (T q)).length = q.length := by
    intro q
    simp [hT1 q]
  have hfst : ∀ q, (List.zipWith (fun (e : Int × ℝ) t => (e.1, e.2 * t)) q (T q)).map Prod.fst = q.map Prod.fst := by
    intro q
    apply List.ext_getElem
    · simp [hT1 q]
    · intro k h1 h2
      simp
  refine ⟨_, Csr.ofRows n rs', hrun, Csr.wf_ofRows hn hrs', ⟨?_, rfl, ?_, ?_, ?_⟩, ?_⟩
  · simp [Csr.ofRows, rs']
  · simp only [Csr.ofRows, rs', ptrs, List.length_map]
    apply List.map_congr_left
    intro k _
    rw [← List.map_take, List.length_flatten, List.length_flatten, List.map_map]
    congr 3
    funext q
    exact hlen q
  · simp only [Csr.ofRows, rs', List.map_flatten, List.map_map]
    congr 2
    funext q
    exact hfst q
  · intro i
    rw [hrow i]
    exact forall2_zipWith _ _ (hT1 _) (hT2 _)
  · rw [mult_order hrs' x y hx (by simpa [rs'] using hy')]
    congr 1
    have hl : rs'.length = rs.length := by simp [rs']
    rw [hl]
    apply vecFn_congr
    intro i h0 h1
    rw [hrow i]
    exact (hT3 _).symm

/-- **C104.**  The error of an element of the rounded product, against the products of the absolute values. -/
theorem C104_mult (r : Rounding) (A : Csr ℝ) (hA : A.WF) (x y : List ℝ)
    (hx : (x.length : Int) = A.cols) (hy : (y.length : Int) = A.rows) :
    ∃ y', @Csr.mult ℝ _ r.add r.mul A x y = .ok y' ∧ (y'.length : Int) = A.rows ∧ ∀ i, 0 ≤ i → i < A.rows →
      |vecAt y' i - A.mulVec x i| ≤ r.gamma (A.row i).length * ((A.row i).map (fun e => |e.2 * vecAt x e.1|)).sum := by
  obtain ⟨y', h1, h2⟩ := @C103_mult ℝ _ r.add r.mul A hA x y hx hy
  refine ⟨y', h1, h2.length_eq, ?_⟩
  intro i h0 hi
  rw [h2.vecAt_eq h0 hi]
  have h := r.dot_bound ((A.row i).map (fun e => (e.2, vecAt x e.1)))
  simp only [List.map_map, List.length_map] at h
  have e : A.mulVec x i = ((A.row i).map (fun e => e.2 * vecAt x e.1)).sum := by
    rw [sum_row_eq (n := A.cols) (fun e he => (Csr.mem_row_ok hA he).2.2)]
    rfl
  rw [e]
  exact h

/-- **C104.**  The same for `MultAT`, with the entries of the column. -/
theorem C104_multAT (r : Rounding) (A : Csr ℝ) (hA : A.WF) (x y : List ℝ)
    (hx : (x.length : Int) = A.rows) (hy : (y.length : Int) = A.cols) :
    ∃ y', @Csr.multAT ℝ _ r.add r.mul A x y = .ok y' ∧ (y'.length : Int) = A.cols ∧ ∀ j, 0 ≤ j → j < A.cols →
      |vecAt y' j - A.tMulVec x j| ≤ r.gamma (A.column j).length * ((A.column j).map (fun e => |e.2 * vecAt x e.1|)).sum := by
  obtain ⟨B, hB, hBwf, hr, hc, -, hrow⟩ := C03_transpose A hA
  obtain ⟨B', hB', hcoef⟩ := C03_transpose_coef A hA
  obtain rfl : B = B' := Except.ok.inj (hB.symm.trans hB')
  obtain ⟨B', hB', hrun⟩ := @C103_transpose ℝ _ r.add r.mul A hA x y
  obtain rfl : B = B' := Except.ok.inj (hB.symm.trans hB')
  obtain ⟨y', h1, h2, h3⟩ := C104_mult r B hBwf x y (by rw [hc]; exact hx) (by rw [hr]; exact hy)
  refine ⟨y', by rw [hrun, h1], by rw [h2, hr], ?_⟩
  intro j h0 hj
  have h := h3 j h0 (by rw [hr]; exact hj)
  rw [hrow j h0 hj] at h
  have e : B.mulVec x j = A.tMulVec x j := by
    unfold Csr.mulVec Csr.tMulVec
    rw [hc]
    exact Finset.sum_congr rfl (fun i _ => by rw [hcoef])
  rwa [e] at h

/-- **C104.**  The entries of the rounded product of two sparse matrices. -/
theorem C104_product (r : Rounding) (A B : Csr ℝ) (hA : A.WF) (hB : B.WF) (hdim : B.rows = A.cols) :
    ∃ P, @Csr.multSparse ℝ _ r.add r.mul A B = .ok P ∧ P.WF ∧ P.NoDup ∧ P.rows = A.rows ∧ P.cols = B.cols ∧
      ∀ i j, 0 ≤ i → i < A.rows → |P.coef i j - ∑ k ∈ Finset.Ico 0 A.cols, A.coef i k * B.coef k j|
        ≤ r.gamma (A.meets B i j).length * ((A.meets B i j).map (fun p => |p|)).sum := by
  obtain ⟨P, h1, h2, h3, h4, h5⟩ := @C103_product ℝ _ r.add r.mul A B hA hB hdim
  have hnd : P.NoDup := by
    intro i
    by_cases hi : 0 ≤ i ∧ i < A.rows
    · exact (h5 i hi.1 hi.2).1
    · have : P.row i = [] := by
        by_contra hne
        obtain ⟨e, he⟩ := List.exists_mem_of_ne_nil _ hne
        have := Csr.mem_row_ok h2 he
        exact hi ⟨this.1, by rw [← h3]; exact this.2.1⟩
      rw [this]
      simp
  refine ⟨P, h1, h2, hnd, h3, h4, ?_⟩
  intro i j h0 hi
  obtain ⟨g1, g2, g3⟩ := h5 i h0 hi
  -- the exact coefficient
  have hex : ∑ k ∈ Finset.Ico 0 A.cols, A.coef i k * B.coef k j = (A.meets B i j).sum := by
    have e := sum_row_eq (n := A.cols) (r := A.row i) (fun e he => (Csr.mem_row_ok hA he).2.2) (fun k => B.coef k j)
    have : ∀ k, A.coef i k = rowCoef (A.row i) k := fun k => rfl
    simp only [this]
    rw [← e]
    unfold Csr.meets
    generalize A.row i = l
    induction l with
    | nil => simp
    | cons a l ih =>
      rw [List.map_cons, List.sum_cons, List.flatMap_cons, List.sum_append, ih, List.sum_map_mul_left]
      rfl
  -- the pairs that meet
  have hpairs : ∃ l : List (ℝ × ℝ), A.meets B i j = l.map (fun p => p.1 * p.2) ∧
      @Csr.meets ℝ r.mul A B i j = l.map (fun p => r.rnd (p.1 * p.2)) := by
    refine ⟨(A.row i).flatMap (fun a => ((B.row a.1).filter (fun b => b.1 = j)).map (fun b => (a.2, b.2))), ?_, ?_⟩
    · unfold Csr.meets
      rw [List.map_flatMap]
      simp only [List.map_map]
      rfl
    · unfold Csr.meets
      rw [List.map_flatMap]
      simp only [List.map_map]
      rfl
  obtain ⟨l, hl1, hl2⟩ := hpairs
  rw [hex, hl1, List.length_map, List.map_map]
  by_cases hj : j ∈ (P.row i).map Prod.fst
  · obtain ⟨e, he, rfl⟩ := List.mem_map.1 hj
    have hc : P.coef i e.1 = e.2 := by
      rw [Csr.coef_eq]
      have hnd' := g1
      revert he hnd'
      generalize P.row i = q
      intro he hnd'
      induction q with
      | nil => simp at he
      | cons b q ih =>
        rw [rowCoef_cons]
        rw [List.map_cons, List.nodup_cons] at hnd'
        rcases List.mem_cons.1 he with rfl | he
        · rw [if_pos rfl, rowCoef_eq_zero, add_zero]
          intro c hc hce
          exact hnd'.1 (hce ▸ List.mem_map_of_mem hc)
        · rw [if_neg, zero_add, ih he hnd'.2]
          intro hbe
          exact hnd'.1 (hbe ▸ List.mem_map_of_mem he)
    rw [hc, g3 e he, hl2]
    exact r.dot_bound' l
  · have hz : P.coef i j = 0 := by
      rw [Csr.coef_eq]
      exact rowCoef_eq_zero (fun e he hej => hj (hej ▸ List.mem_map_of_mem he))
    have hnil : @Csr.meets ℝ r.mul A B i j = [] := by
      by_contra hne
      exact hj ((g2 j).2 hne)
    rw [hl2, List.map_eq_nil_iff] at hnil
    rw [hz, hnil]
    simp

/-- **C104.**  The products of the other matrix classes. -/
theorem C104_other (r : Rounding) (x y : List ℝ) :
    (∀ D : Dense ℝ, D.WF → (x.length : Int) = D.cols → (y.length : Int) = D.rows →
      ∃ y', @Dense.mult ℝ _ r.add r.mul D x y = .ok y' ∧ (y'.length : Int) = D.rows ∧ ∀ i, 0 ≤ i → i < D.rows →
        |vecAt y' i - ((iota D.cols.toNat).map (fun j => D.entry i j * vecAt x j)).sum|
          ≤ r.gamma D.cols.toNat * ((iota D.cols.toNat).map (fun j => |D.entry i j * vecAt x j|)).sum) ∧
    (∀ D : Dense ℝ, D.WF → (x.length : Int) = D.rows → (y.length : Int) = D.cols →
      ∃ y', @Dense.multAT ℝ _ r.add r.mul D x y = .ok y' ∧ (y'.length : Int) = D.cols ∧ ∀ j, 0 ≤ j → j < D.cols →
        |vecAt y' j - ((iota D.rows.toNat).map (fun i => D.entry i j * vecAt x i)).sum|
          ≤ r.gamma D.rows.toNat * ((iota D.rows.toNat).map (fun i => |D.entry i j * vecAt x i|)).sum) ∧
    (∀ C : Coo ℝ, C.WF → C.sizeSet = true → (x.length : Int) = C.cols → (y.length : Int) = C.rows →
      ∃ y', @Coo.mult ℝ _ r.add r.mul C x y = .ok y' ∧ (y'.length : Int) = C.rows ∧ ∀ i, 0 ≤ i → i < C.rows →
        |vecAt y' i - ((C.entries.filter (fun e => e.1 = i)).map (fun e => e.2.2 * vecAt x e.2.1)).sum|
          ≤ r.gamma (C.entries.filter (fun e => e.1 = i)).length * ((C.entries.filter (fun e => e.1 = i)).map (fun e => |e.2.2 * vecAt x e.2.1|)).sum) ∧
    (∀ L : Lil ℝ, L.WF → (x.length : Int) = L.cols → (y.length : Int) = L.rows →
      ∃ y', @Lil.mult ℝ _ r.add r.mul L x y = .ok y' ∧ (y'.length : Int) = L.rows ∧ ∀ i, 0 ≤ i → i < L.rows →
        |vecAt y' i - ((L.entries.getD i.toNat []).map (fun e => e.2 * vecAt x e.1)).sum|
          ≤ r.gamma (L.entries.getD i.toNat []).length * ((L.entries.getD i.toNat []).map (fun e => |e.2 * vecAt x e.1|)).sum) := by
  refine ⟨?_, ?_, ?_, ?_⟩
  · intro D hD hx hy
    obtain ⟨y', h1, h2⟩ := (@C103_dense ℝ _ r.add r.mul D hD x y).1 hx hy
    refine ⟨y', h1, h2.length_eq, fun i h0 hi => ?_⟩
    rw [h2.vecAt_eq h0 hi]
    have h := r.dot_bound ((iota D.cols.toNat).map (fun j => (D.entry i j, vecAt x j)))
    simp only [List.map_map, List.length_map] at h
    rw [show (iota D.cols.toNat).length = D.cols.toNat by simp [iota]] at h
    exact h
  · intro D hD hx hy
    obtain ⟨y', h1, h2⟩ := (@C103_dense ℝ _ r.add r.mul D hD x y).2 hx hy
    refine ⟨y', h1, h2.length_eq, fun j h0 hj => ?_⟩
    rw [h2.vecAt_eq h0 hj]
    have h := r.dot_bound ((iota D.rows.toNat).map (fun i => (D.entry i j, vecAt x i)))
    simp only [List.map_map, List.length_map] at h
    rw [show (iota D.rows.toNat).length = D.rows.toNat by simp [iota]] at h
    exact h
  · intro C hC hs hx hy
    obtain ⟨y', h1, h2⟩ := @C103_coo ℝ _ r.add r.mul C hC hs x y hx hy
    refine ⟨y', h1, h2.length_eq, fun i h0 hi => ?_⟩
    rw [h2.vecAt_eq h0 hi]
    have h := r.dot_bound ((C.entries.filter (fun e => e.1 = i)).map (fun e => (e.2.2, vecAt x e.2.1)))
    simp only [List.map_map, List.length_map] at h
    exact h
  · intro L hL hx hy
    obtain ⟨y', h1, h2⟩ := @C103_lil ℝ _ r.add r.mul L hL x y hx hy
    refine ⟨y', h1, h2.length_eq, fun i h0 hi => ?_⟩
    rw [h2.vecAt_eq h0 hi]
    have h := r.dot_bound ((L.entries.getD i.toNat []).map (fun e => (e.2, vecAt x e.1)))
    simp only [List.map_map, List.length_map] at h
    exact h

/-- **C104.**  The sum and the inner product of vectors. -/
theorem C104_vector (r : Rounding) (x y : List ℝ) :
    |@Vec.sum ℝ _ r.add x - x.sum| ≤ r.gamma x.length * (x.map (fun a => |a|)).sum ∧
    (y.length = x.length → ∃ s, @Vec.inner ℝ _ r.add r.mul x y = .ok s ∧
      |s - ((x.zip y).map (fun p => p.1 * p.2)).sum| ≤ r.gamma x.length * ((x.zip y).map (fun p => |p.1 * p.2|)).sum) := by
  refine ⟨r.sum_bound x, fun h => ⟨_, (@C103_vector ℝ _ r.add r.mul x y).2 h, ?_⟩⟩
  have h2 := r.dot_bound (x.zip y)
  rw [show (x.zip y).length = x.length by simp [h]] at h2
  rw [← List.map_uncurry_zip_eq_zipWith]
  exact h2

/-- **C104.**  The norm, with a rounded square root: the error is small against the norm itself, as nothing cancels. -/
theorem C104_norm (r : Rounding) (x : List ℝ) :
    ∃ s, @Vec.l2Norm ℝ _ r.add r.mul (fun v => r.rnd (Real.sqrt v)) x = .ok s ∧
      |s - Real.sqrt ((x.map (fun a => a * a)).sum)| ≤ r.gamma (x.length + 1) * Real.sqrt ((x.map (fun a => a * a)).sum) := by
  obtain ⟨s, h1, h2⟩ := (C104_vector r x x).2 rfl
  unfold Vec.l2Norm
  rw [h1, ok_bind]
  refine ⟨_, rfl, ?_⟩
  have e1 : ∀ x : List ℝ, (x.zip x).map (fun p => p.1 * p.2) = x.map (fun a => a * a) := by
    intro x
    induction x with
    | nil => rfl
    | cons a x ih => rw [List.zip_cons_cons, List.map_cons, ih, List.map_cons]
  have e2 : (x.zip x).map (fun p => |p.1 * p.2|) = x.map (fun a => a * a) := by
    have := congrArg (List.map (fun a : ℝ => |a|)) (e1 x)
    rw [List.map_map, List.map_map] at this
    refine Eq.trans this (List.map_congr_left ?_)
    intro a _
    exact abs_of_nonneg (mul_self_nonneg a)
  rw [e1, e2] at h2
  have hS : 0 ≤ (x.map (fun a => a * a)).sum := List.sum_nonneg (by
    intro v hv
    obtain ⟨a, -, rfl⟩ := List.mem_map.1 hv
    exact mul_self_nonneg a)
  generalize (x.map (fun a => a * a)).sum = S at *
  obtain ⟨t, ht, e3⟩ := r.rnd_fac (Real.sqrt s)
  change |r.rnd (Real.sqrt s) - Real.sqrt S| ≤ _
  rw [e3]
  -- the factor of the square root
  have hfac : ∃ q, r.Fac x.length q ∧ Real.sqrt s = Real.sqrt S * q := by
    rcases eq_or_lt_of_le hS with h0 | h0
    · refine ⟨1, Rounding.Fac.one _, ?_⟩
      rw [← h0] at h2 ⊢
      simp at h2
      rw [h2]
      simp
    · refine ⟨Real.sqrt (s / S), ?_, ?_⟩
      · unfold Rounding.Fac
        have h3 : |s / S - 1| ≤ r.gamma x.length := by
          rw [show s / S - 1 = (s - S) / S by field_simp, abs_div, abs_of_pos h0, div_le_iff₀ h0]
          exact h2
        refine le_trans ?_ h3
        by_cases hneg : s / S ≤ 0
        · rw [Real.sqrt_eq_zero_of_nonpos hneg, zero_sub, abs_neg, abs_one, abs_of_nonpos (by linarith)]
          linarith
        · push Not at hneg
          have hq := Real.sq_sqrt hneg.le
          have hq0 := Real.sqrt_nonneg (s / S)
          generalize Real.sqrt (s / S) = q at *
          rw [← hq, show q ^ 2 - 1 = (q - 1) * (q + 1) by ring, abs_mul, abs_of_pos (show 0 < q + 1 by linarith)]
          nlinarith [abs_nonneg (q - 1)]
      · rw [Real.sqrt_div' _ hS]
        have : Real.sqrt S ≠ 0 := (Real.sqrt_pos.2 h0).ne'
        field_simp
  obtain ⟨q, hq, e4⟩ := hfac
  have := (hq.mul ht).abs_sub (Real.sqrt S)
  rw [abs_of_nonneg (Real.sqrt_nonneg S)] at this
  rw [e4, mul_assoc]
  exact this

/-- One, and a little more than one, to `p` digits. -/
theorem nearest_one (p : Nat) (hp : 0 < p) : nearestFn p 1 = 1 ∧ nearestFn p (1 + (1 / 2) ^ (p + 1)) = 1 := by
  have hm : ((2 ^ (p - 1) : ℤ) : ℝ) * 2 ^ ((0 : Int) + 1 - p) = 1 := by
    push_cast
    rw [← zpow_natCast, ← zpow_add₀ (by norm_num), show ((p - 1 : Nat) : Int) + (1 - (p : Int)) = 0 by omega, zpow_zero]
  constructor
  · have h := Nearest.nearest_mant hp (m := 2 ^ (p - 1)) (e := 0) (by rw [abs_of_nonneg (by positivity)])
      (by rw [abs_of_nonneg (by positivity)]; exact pow_lt_pow_right₀ (by norm_num) (by omega))
    rwa [hm] at h
  · have hpos : (0 : ℝ) < (1 / 2) ^ (p + 1) := by positivity
    have hlt : ((1 : ℝ) / 2) ^ (p + 1) ≤ (1 / 2) ^ 2 := pow_le_pow_of_le_one (by norm_num) (by norm_num) (by omega)
    have hx : (0 : ℝ) < 1 + (1 / 2) ^ (p + 1) := by linarith
    have habs : |1 + ((1 : ℝ) / 2) ^ (p + 1)| = 1 + (1 / 2) ^ (p + 1) := abs_of_pos hx
    have hlog : Int.log 2 |1 + ((1 : ℝ) / 2) ^ (p + 1)| = 0 := by
      rw [habs]
      apply le_antisymm
      · rw [← Int.lt_add_one_iff, ← Int.lt_zpow_iff_log_lt (by norm_num) hx]
        norm_num at hlt ⊢
        linarith
      · rw [← Int.zpow_le_iff_le_log (by norm_num) hx]
        norm_num
    unfold nearestFn
    rw [if_neg hx.ne', hlog]
    have hs : (2 : ℝ) ^ ((0 : Int) + 1 - p) ≠ 0 := zpow_ne_zero _ (by norm_num)
    have hr : round ((1 + ((1 : ℝ) / 2) ^ (p + 1)) / 2 ^ ((0 : Int) + 1 - p)) = 2 ^ (p - 1) := by
      have e : (1 + ((1 : ℝ) / 2) ^ (p + 1)) / 2 ^ ((0 : Int) + 1 - p) = ((2 ^ (p - 1) : ℤ) : ℝ) + 1 / 4 := by
        rw [div_eq_iff hs, add_mul, hm]
        congr 1
        rw [one_div, inv_pow, ← zpow_natCast, ← zpow_neg, show (1 : ℝ) / 4 = 2 ^ (-2 : Int) by norm_num, ← zpow_add₀ (by norm_num)]
        congr 1
        push_cast
        ring
      rw [e, round_eq, add_assoc, Int.floor_intCast_add]
      norm_num
    rw [hr, hm]

/-- **C104.**  The errors are against the sums of absolute values, not against the result: in any precision there are three numbers whose
computed sum is zero although their sum is not. -/
theorem C104_cancels (p : Nat) (hp : 0 < p) :
    ∃ x : List ℝ, x.length = 3 ∧ x.sum ≠ 0 ∧ @Vec.sum ℝ _ (Rounding.nearest p hp).add x = 0 := by
  obtain ⟨h1, h2⟩ := nearest_one p hp
  refine ⟨[1, (1 / 2) ^ (p + 1), -1], rfl, ?_, ?_⟩
  · simp only [List.sum_cons, List.sum_nil]
    have : (0 : ℝ) < (1 / 2) ^ (p + 1) := by positivity
    intro h
    linarith
  · change nearestFn p (nearestFn p (nearestFn p (0 + 1) + (1 / 2) ^ (p + 1)) + -1) = 0
    rw [zero_add, h1, h2]
    simp [nearestFn]

/-- C104: rounding to nearest with 53 digits, and a matrix with a row of three entries. -/
example : (Rounding.nearest 53 (by norm_num)).u = (1 / 2) ^ 53 ∧ ∃ A : Csr ℝ, A.WF ∧ A.cols = 3 ∧ (A.row 0).length = 3 :=
  ⟨rfl, ⟨1, 3, [0, 3], [2, 0, 2], [1, 2, 3]⟩, ⟨by simp, by simp, by simp, by decide, by decide, by simp, by simp, by simp⟩, rfl, rfl⟩

/-- C104: the rounding is not trivial. -/
example : (Rounding.nearest 53 (by norm_num)).rnd (1 + (1 / 2) ^ 54) = 1 := (nearest_one 53 (by norm_num)).2

end Linalg
