import Verif.Model.Operator
import Verif.Props.Alias
import Verif.Props.Vector

/-!
# The functions every operator inherits, and sums and multiples of vectors
-/

namespace Linalg
open Cpp

variable {α R : Type}

/-- **C107.**  Sizes of an operator: negative ones are rejected by every constructor; a move leaves both objects with the same sizes. -/
theorem C107_sizes (r c : Int) :
    (0 ≤ r ∧ 0 ≤ c → OpSize.make r c = .ok (r, c) ∧ OpSize.moved (r, c) = .ok ((r, c), (r, c))) ∧
    (¬ (0 ≤ r ∧ 0 ≤ c) → OpSize.make r c = .error .assertFail ∧ OpSize.moved (r, c) = .error .assertFail) ∧
    OpSize.square r = OpSize.make r r ∧ OpSize.default = .ok (0, 0) := by
  refine ⟨fun h => ?_, fun h => ?_, rfl, by decide⟩
  · unfold OpSize.make OpSize.moved
    rw [cassert_true (p := r ≥ 0) h.1, cassert_true (p := c ≥ 0) h.2]
    exact ⟨rfl, rfl⟩
  · unfold OpSize.make OpSize.moved
    by_cases hr : 0 ≤ r
    · have hc : ¬ (c ≥ 0) := fun hc => h ⟨hr, hc⟩
      rw [cassert_true (p := r ≥ 0) hr, cassert_false hc]
      exact ⟨rfl, rfl⟩
    · rw [cassert_false (p := r ≥ 0) hr]
      exact ⟨rfl, rfl⟩

theorem multResize_eq [Zero α] {op : Op α} {F : List α → Int → α} (hF : op.Computes F) (h0 : 0 ≤ op.rows) {x : List α} (hx : (x.length : Int) = op.cols)
    (y : List α) : ∃ z, op.multResize x y = .ok z ∧ VecIs z op.rows (F x) := by
  obtain ⟨y', h1, h2, -, -⟩ := (C32_setSize y op.rows 0).1 h0
  unfold Op.multResize
  rw [h1, ok_bind]
  exact hF x y' hx h2

theorem multATResize_eq [Zero α] {op : Op α} {F : List α → Int → α} (hF : op.ComputesAT F) (h0 : 0 ≤ op.cols) {x : List α} (hx : (x.length : Int) = op.rows)
    (y : List α) : ∃ z, op.multATResize x y = .ok z ∧ VecIs z op.cols (F x) := by
  obtain ⟨y', h1, h2, -, -⟩ := (C32_setSize y op.cols 0).1 h0
  unfold Op.multATResize
  rw [h1, ok_bind]
  exact hF x y' hx h2

/-- **C107.**  If the virtual `Mult` of a class computes `F` on vectors of the right sizes, then so do the inherited forms: into a `Vector` of any size and
with any contents, and into a new one; likewise `MultAT`. -/
theorem C107_forms [Zero α] (op : Op α) (F G : List α → Int → α) (h0 : 0 ≤ op.rows) (h1 : 0 ≤ op.cols) :
    (op.Computes F → ∀ x : List α, (x.length : Int) = op.cols →
      ∃ z, op.multVec x = .ok z ∧ (∀ y, op.multResize x y = .ok z) ∧ VecIs z op.rows (F x)) ∧
    (op.ComputesAT G → ∀ x : List α, (x.length : Int) = op.rows →
      ∃ z, op.multATVec x = .ok z ∧ (∀ y, op.multATResize x y = .ok z) ∧ VecIs z op.cols (G x)) := by
  constructor
  · intro hF x hx
    obtain ⟨z, hz, hz'⟩ := multResize_eq hF h0 hx []
    have all : ∀ y, op.multResize x y = .ok z := by
      intro y
      obtain ⟨w, hw, hw'⟩ := multResize_eq hF h0 hx y
      rw [hw, hz'.unique hw']
    refine ⟨z, ?_, all, hz'⟩
    unfold Op.multVec
    rw [mkVec_int h0, ok_bind, all]
  · intro hF x hx
    obtain ⟨z, hz, hz'⟩ := multATResize_eq hF h1 hx []
    have all : ∀ y, op.multATResize x y = .ok z := by
      intro y
      obtain ⟨w, hw, hw'⟩ := multATResize_eq hF h1 hx y
      rw [hw, hz'.unique hw']
    refine ⟨z, ?_, all, hz'⟩
    unfold Op.multATVec
    rw [mkVec_int h1, ok_bind, all]

/-- **C107.**  A class that does not define `MultAT` throws in all forms; the form with a `Vector` has resized it by then. -/
theorem C107_noAT [Zero α] (rows cols : Int) (hc : 0 ≤ cols) (mult : List α → List α → Res (List α)) (x y : List α) :
    (Op.ofMult rows cols mult).multAT x y = .error .threw ∧ (Op.ofMult rows cols mult).multATResize x y = .error .threw ∧
    (Op.ofMult rows cols mult).multATVec x = .error .threw := by
  have e : ∀ y, (Op.ofMult rows cols mult).multATResize x y = .error .threw := by
    intro y
    obtain ⟨y', h1, -, -, -⟩ := (C32_setSize y cols (0 : α)).1 hc
    unfold Op.multATResize
    have : Vec.setSize y (Op.ofMult rows cols mult).cols 0 = .ok y' := h1
    rw [this, ok_bind]
    rfl
  refine ⟨rfl, e y, ?_⟩
  unfold Op.multATVec
  have : mkVec (Op.ofMult rows cols mult).cols (0 : α) = .ok (List.replicate cols.toNat 0) := mkVec_int hc 0
  rw [this, ok_bind, e]

/-- **C107.**  `InnerProduct(x, y)` is `yᵀ F(x)`; a `y` of another size than the result is rejected. -/
theorem C107_inner [NonUnitalNonAssocSemiring R] (op : Op R) (F : List R → Int → R) (hF : op.Computes F) (h0 : 0 ≤ op.rows) (h1 : 0 ≤ op.cols) (x y : List R)
    (hx : (x.length : Int) = op.cols) :
    ((y.length : Int) = op.rows → op.innerProduct x y = .ok (∑ i ∈ Finset.Ico 0 op.rows, vecAt y i * F x i)) ∧
    ((y.length : Int) ≠ op.rows → op.innerProduct x y = .error .assertFail) := by
  obtain ⟨z, hz, -, hz'⟩ := (C107_forms op F F h0 h1).1 hF x hx
  have hl := hz'.length_eq
  unfold Op.innerProduct
  rw [hz, ok_bind]
  constructor
  · intro hy
    rw [(C30_sum_inner y z).2.1 (by omega), hy]
    congr 1
    apply Finset.sum_congr rfl
    intro i hi
    have hi := Finset.mem_Ico.1 hi
    rw [hz'.vecAt_eq hi.1 hi.2]
  · intro hy
    exact (C30_sum_inner y z).2.2 (by omega)

/-- **C107.**  For a sparse matrix: `InnerProduct(x, y)` is the double sum of `y_i a_ij x_j`. -/
theorem C107_inner_sparse [NonUnitalSemiring R] (A : Csr R) (hA : A.WF) (x y : List R) (hx : (x.length : Int) = A.cols) (hy : (y.length : Int) = A.rows) :
    A.toOp.innerProduct x y = .ok (∑ i ∈ Finset.Ico 0 A.rows, ∑ j ∈ Finset.Ico 0 A.cols, vecAt y i * A.coef i j * vecAt x j) := by
  rw [(C107_inner A.toOp _ (C41_sparse_block A hA).1 hA.rows_nonneg hA.cols_nonneg x y hx).1 hy]
  congr 1
  apply Finset.sum_congr rfl
  intro i _
  rw [Csr.mulVec, Finset.mul_sum]
  exact Finset.sum_congr rfl (fun j _ => (mul_assoc _ _ _).symm)

/-- **C107.**  For a symmetric matrix over a commutative ring the two arguments can be exchanged. -/
theorem C107_inner_symm [CommSemiring R] (A : Csr R) (hA : A.WF) (hs : A.rows = A.cols) (hsym : ∀ i j, A.coef i j = A.coef j i) (x y : List R)
    (hx : (x.length : Int) = A.cols) (hy : (y.length : Int) = A.rows) : A.toOp.innerProduct x y = A.toOp.innerProduct y x := by
  rw [C107_inner_sparse A hA x y hx hy, C107_inner_sparse A hA y x (by omega) (by omega), Finset.sum_comm, hs]
  congr 1
  apply Finset.sum_congr rfl
  intro i _
  apply Finset.sum_congr rfl
  intro j _
  rw [hsym j i]
  ring

/-- The sizes of stacked operators are added up. -/
theorem C107_sums (ops : List (Op α)) : Op.sumRows ops = (ops.map (fun op => op.rows)).sum ∧ Op.sumCols ops = (ops.map (fun op => op.cols)).sum := by
  unfold Op.sumRows Op.sumCols
  rw [foldl_add_eq (fun op : Op α => op.rows), foldl_add_eq (fun op : Op α => op.cols), zero_add, zero_add]
  exact ⟨rfl, rfl⟩

/-! ## One vector as argument and result -/

/-- A sparse matrix as an operator on views. -/
def Csr.toOpView [Zero α] [Add α] [Mul α] (A : Csr α) : OpView α := ⟨A.rows, A.cols, A.multView⟩

/-- **C107.**  `A.Mult(x, x)` with one `Vector`: rejected for every vector if the matrix is not square.  If it is, the size of `x` is never compared with
that of the matrix: `x` is cut off or filled up with zeros, and then treated as in C106. -/
theorem C107_self [Zero α] [Add α] [Mul α] (A : Csr α) (hA : A.WF) (x : List α) :
    (A.rows ≠ A.cols → A.toOpView.multSelf x = .error .assertFail) ∧
    (A.rows = A.cols → ∃ z, A.toOpView.multSelf x = .ok z ∧ (z.length : Int) = A.rows ∧
      ∀ i, 0 ≤ i → i < A.rows →
        vecAt z i = addUp ((A.row i).map (fun e => e.2 * (if e.1 < i then vecAt z e.1 else vecAt x e.1)))) := by
  obtain ⟨x', h1, h2, h3, h4⟩ := (C32_setSize x A.rows (0 : α)).1 hA.rows_nonneg
  have e : A.toOpView.multSelf x = A.multView ⟨0, x'.length⟩ ⟨0, x'.length⟩ x' := by
    unfold OpView.multSelf
    have : Vec.setSize x A.toOpView.rows 0 = .ok x' := h1
    rw [this, ok_bind]
    rfl
  constructor
  · intro hne
    rw [e]
    unfold Csr.multView
    rw [cassert_false (p := ((x'.length : Int)) = A.cols) (by omega)]
    rfl
  · intro heq
    have hv : View.InMem ⟨0, x'.length⟩ x' := ⟨le_refl _, by simp, by simp⟩
    obtain ⟨m', z, hm, hw, hl, hz⟩ := C106_same A hA ⟨0, x'.length⟩ x' hv h2.symm (by rw [← heq]; exact h2.symm)
    have hx' : View.elems ⟨0, x'.length⟩ x' = x' :=
      (View.is_elems hv.size_nonneg x').unique ((vecIs_vecAt x').congr (fun i _ _ => by simp))
    have hm' : m' = z := by
      rw [← hw.elems_eq]
      have hl' := hw.length_eq
      refine (vecIs_vecAt m').unique ?_
      have := View.is_elems (v := ⟨0, x'.length⟩) hv.size_nonneg m'
      simp only [← hl'] at this
      exact (VecIs.congr (by rw [← hl']; exact this) (fun i _ _ => by simp))
    refine ⟨z, by rw [e, hm, hm'], by rw [hl]; exact h2, ?_⟩
    intro i i0 i1
    rw [hz i i0 (by simpa [h2] using i1), hx']
    congr 1
    apply List.map_congr_left
    intro en he
    have hok := Csr.mem_row_ok hA he
    by_cases hlt : en.1 < i
    · rw [if_pos hlt, if_pos hlt]
    · rw [if_neg hlt, if_neg hlt]
      congr 1
      by_cases hin : en.1 < x.length
      · have := h3 en.1 hok.2.2.1 (by omega) hin
        rw [rd_vecAt x' hok.2.2.1 (by omega), rd_vecAt x hok.2.2.1 hin] at this
        exact Except.ok.inj this
      · have := h4 en.1 (by omega) (by omega)
        rw [rd_vecAt x' hok.2.2.1 (by omega)] at this
        rw [Except.ok.inj this, View.vecAt_out x (by omega)]

/-! ## Vectors -/

theorem take_vecFn {n k : Nat} (h : n ≤ k) (f : Int → α) : (vecFn k f).take n = vecFn n f := by
  unfold vecFn
  rw [← List.map_take, List.take_range, Nat.min_eq_left h]

theorem vecAt_append_left [Zero α] (x y : List α) {i : Int} (h0 : 0 ≤ i) (h1 : i < x.length) : vecAt (x ++ y) i = vecAt x i := by
  rw [vecAt_int _ h0 (by simp; omega), vecAt_int _ h0 h1, List.getElem_append_left (by omega)]

theorem vecAt_append_right [Zero α] (x y : List α) {i : Int} (h0 : 0 ≤ i) (h1 : i < y.length) : vecAt (x ++ y) (x.length + i) = vecAt y i := by
  rw [vecAt_int _ (by omega) (by simp; omega), vecAt_int _ h0 h1, List.getElem_append_right (by omega)]
  congr 1
  omega

/-- What an entrywise operation on a copy of `x` and a separate `y` returns. -/
theorem take_of_updates [Zero R] {x y m' : List R} {g : Int → R} (h : Updates ⟨0, x.length⟩ (x ++ y) m' g) : VecIs (m'.take x.length) x.length g := by
  have hl : m'.length = (x ++ y).length := by have := h.length_eq; omega
  have e : m' = vecFn m'.length (vecAt m') := eq_vecFn_vecAt m'
  rw [e, take_vecFn (by rw [hl]; simp)]
  refine (is_vecFn x.length _).congr ?_
  intro i i0 i1
  have := h.inside ⟨le_refl _, by simp, by simp⟩ i0 i1
  simp only [zero_add] at this
  exact this

/-- **C107.**  `x + y` and `x - y` of vectors of one size, entry by entry; vectors of different sizes are rejected. -/
theorem C107_plus_minus [Ring R] (x y : List R) :
    (y.length = x.length → (∃ z, Vec.plus x y = .ok z ∧ VecIs z x.length (fun i => vecAt x i + vecAt y i)) ∧
      ∃ z, Vec.minus x y = .ok z ∧ VecIs z x.length (fun i => vecAt x i - vecAt y i)) ∧
    (y.length ≠ x.length → Vec.plus x y = .error .assertFail ∧ Vec.minus x y = .error .assertFail) := by
  constructor
  · intro hl
    have hx : View.InMem ⟨0, x.length⟩ (x ++ y) := ⟨le_refl _, by simp, by simp⟩
    have hy : View.InMem ⟨x.length, y.length⟩ (x ++ y) := ⟨by simp, by simp, by simp⟩
    obtain ⟨⟨m1, h1, u1⟩, ⟨m2, h2, u2⟩, -⟩ := C28_entrywise ⟨0, x.length⟩ ⟨x.length, y.length⟩ (x ++ y) hx hy (by simp [hl])
      (Or.inr (fun p hp => by have := hp.1.2; have := hp.2.1; simp only at *; omega))
    constructor
    · refine ⟨m1.take x.length, by unfold Vec.plus; rw [h1, ok_bind], (take_of_updates u1).congr (fun i i0 i1 => ?_)⟩
      simp only [zero_add]
      rw [vecAt_append_left x y i0 i1, vecAt_append_right x y i0 (by omega)]
    · refine ⟨m2.take x.length, by unfold Vec.minus; rw [h2, ok_bind], (take_of_updates u2).congr (fun i i0 i1 => ?_)⟩
      simp only [zero_add]
      rw [vecAt_append_left x y i0 i1, vecAt_append_right x y i0 (by omega)]
  · intro hl
    unfold Vec.plus Vec.minus View.addAssign View.subAssign
    have : ¬ ((x.length : Int) = (y.length : Int)) := by omega
    rw [cassert_false this]
    exact ⟨rfl, rfl⟩

theorem eq_of_updates [Zero R] {x m' : List R} {g : Int → R} (h : Updates ⟨0, x.length⟩ x m' g) : VecIs m' x.length g := by
  have := take_of_updates (x := x) (y := []) (m' := m') (by rw [List.append_nil]; exact h)
  have hl : m'.length = x.length := by have := h.length_eq; omega
  rwa [← hl, List.take_length, hl] at this

/-- **C107.**  `x * a` and `a * x` multiply every element by `a` from the right; `x / a` divides and rejects zero. -/
theorem C107_scalar [Field R] [DecidableEq R] (x : List R) (a : R) :
    (∃ z, Vec.timesScalar x a = .ok z ∧ VecIs z x.length (fun i => vecAt x i * a)) ∧
    (a ≠ 0 → ∃ z, Vec.overScalar x a = .ok z ∧ VecIs z x.length (fun i => vecAt x i / a)) ∧
    (a = 0 → Vec.overScalar x a = .error .assertFail) := by
  have hx : View.InMem ⟨0, x.length⟩ x := ⟨le_refl _, by simp, by simp⟩
  obtain ⟨m1, h1, u1⟩ := (C28_scalar ⟨0, x.length⟩ x hx a).1
  refine ⟨⟨m1, h1, (eq_of_updates u1).congr (fun i _ _ => by simp)⟩, fun ha => ?_, (C28_divScalar ⟨0, x.length⟩ x hx a).2⟩
  obtain ⟨m2, h2, u2⟩ := (C28_divScalar ⟨0, x.length⟩ x hx a).1 ha
  exact ⟨m2, h2, (eq_of_updates u2).congr (fun i _ _ => by simp)⟩

/-- **C107.**  `a / x` divides `a` by every element; nothing rejects a zero element, the division is carried out. -/
theorem C107_scalarOver [Field R] [DecidableEq R] (x : List R) (a : R) :
    ((∀ i : Int, 0 ≤ i → i < x.length → vecAt x i ≠ 0) → ∃ z, Vec.scalarOver a x = .ok z ∧ VecIs z x.length (fun i => a / vecAt x i)) ∧
    (0 ∈ x → Vec.scalarOver a x = .error .divZero) := by
  constructor
  · intro hne
    refine ⟨vecFn x.length (fun i => a / vecAt x i), ?_, is_vecFn _ _⟩
    unfold Vec.scalarOver
    conv => lhs; rw [eq_vecFn_vecAt x]
    rw [length_vecFn]
    refine fillLoop' (vecAt x) _ _ (fun i h i0 i1 hh => ?_)
    rw [rd_vecFn i0 i1, ok_bind, hh, if_neg (hne i i0 i1), wr_vecFn _ i0 i1]
  · intro h0
    obtain ⟨k, hk, hk'⟩ := List.mem_iff_getElem.1 h0
    unfold Vec.scalarOver
    refine forUp_fails (fun i y => y.length = x.length ∧ ∀ j, i ≤ j → j < x.length → vecAt y j = vecAt x j) (fun i => vecAt x i ≠ 0) .divZero
      ⟨rfl, fun _ _ _ => rfl⟩ ?_ ?_ ?_
    · intro i y i0 i1 hy hg
      rw [rd_vecAt y i0 (by omega), ok_bind, hy.2 i (le_refl _) i1, if_neg hg]
      obtain ⟨q, rfl⟩ := Int.eq_ofNat_of_zero_le i0
      refine ⟨_, wr_nat (by omega), by simp [hy.1], ?_⟩
      intro j j0 j1
      rw [← hy.2 j (by omega) j1, vecAt_int _ (by omega) (by simp; omega), vecAt_int y (by omega) (by omega), List.getElem_set_ne (by omega)]
    · intro i y i0 i1 hy hg
      rw [rd_vecAt y i0 (by omega), ok_bind, hy.2 i (le_refl _) i1, if_pos (by simpa using hg)]
    · exact ⟨k, by omega, by omega, by rw [vecAt_nat x k hk, hk']; simp⟩

/-! ## Examples -/

/-- C107: a sparse matrix as an operator, in the three forms; the `Vector` may have any size before. -/
example : ∃ A : Csr Int, A.WF ∧ A.toOp.multVec [1, 2] = .ok [4, 3, 0] ∧ A.toOp.multResize [1, 2] [9] = .ok [4, 3, 0] ∧
    A.toOp.multATVec [1, 2, 3] = .ok [6, 2] ∧ A.toOp.innerProduct [1, 2] [1, 1, 1] = .ok 7 ∧ A.toOp.innerProduct [1, 2] [1, 1] = .error .assertFail :=
  ⟨⟨3, 2, [0, 1, 2, 2], [1, 0], [2, 3]⟩, by decide, by decide, by decide, by decide, by decide, by decide⟩

/-- C107: a symmetric matrix. -/
example : ∃ A : Csr Int, A.WF ∧ A.rows = A.cols ∧ A.toOp.innerProduct [1, 2] [3, 5] = .ok 27 ∧ A.toOp.innerProduct [3, 5] [1, 2] = .ok 27 :=
  ⟨⟨2, 2, [0, 2, 4], [0, 1, 0, 1], [2, 1, 1, 1]⟩, by decide, by decide, by decide, by decide⟩

/-- C107: one vector as argument and result, of the wrong size: accepted for a square matrix. -/
example : ∃ A : Csr Int, A.WF ∧ A.rows = A.cols ∧ A.toOpView.multSelf [5] = .ok [10, 0] ∧ A.multVec [5] = .error .assertFail :=
  ⟨⟨2, 2, [0, 1, 2], [0, 1], [2, 3]⟩, by decide, by decide, by decide, by decide⟩

/-- C107: vectors. -/
example : Vec.plus [1, 2] [10, 20] = .ok ([11, 22] : List Int) ∧ Vec.minus [1, 2] [10, 20] = .ok ([-9, -18] : List Int) ∧
    Vec.scalarOver 6 [2, 3] = .ok ([3, 2] : List Rat) ∧ Vec.overScalar [2, 3] 2 = .ok ([1, 3 / 2] : List Rat) ∧ Vec.timesScalar [2, 3] 2 = .ok ([4, 6] : List Rat) := by
  refine ⟨by decide, by decide, by decide +kernel, by decide +kernel, by decide +kernel⟩

end Linalg
