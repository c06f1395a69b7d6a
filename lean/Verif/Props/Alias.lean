import Verif.Proof.Alias
import Verif.Props.Order
import Verif.Props.Lil
import Verif.Props.Block
import Mathlib.Algebra.Ring.Defs

/-!
# Products whose result shares memory with the argument
-/

namespace Linalg
open Cpp

variable {α R : Type}

/-! ## Views that share nothing -/

/-- **C106.**  `SparseMatrix::Mult` and `MultAT` on views of one memory that share no element do what they do on separate vectors, and leave the
rest of the memory, the argument included, as it was; when they reject, both reject. -/
theorem C106_apart [Zero α] [Add α] [Mul α] (A : Csr α) (hA : A.WF) (x y : View) (m : List α) (hx : x.InMem m) (hy : y.InMem m) (ha : x.Apart y) :
    y.Mirrors m (A.mult (x.elems m) (y.elems m)) (A.multView x y m) ∧
    y.Mirrors m (A.multAT (x.elems m) (y.elems m)) (A.multATView x y m) :=
  ⟨View.mirrors_of_sim (A.mult_apart hA hx hy ha), View.mirrors_of_sim ((scatter_apart hx hy ha).csrAT A hA
    (View.length_elems hx.size_nonneg m) (View.length_elems hy.size_nonneg m) (View.wrote_fill hy))⟩

/-- **C106.**  The same for `DenseMatrix`, of any shape, well-formed or not. -/
theorem C106_apart_dense [Zero α] [Add α] [Mul α] (D : Dense α) (x y : View) (m : List α) (hx : x.InMem m) (hy : y.InMem m) (ha : x.Apart y) :
    y.Mirrors m (D.mult (x.elems m) (y.elems m)) (D.multView x y m) ∧
    y.Mirrors m (D.multAT (x.elems m) (y.elems m)) (D.multATView x y m) :=
  ⟨View.mirrors_of_sim ((scatter_apart hx hy ha).dense D (View.length_elems hx.size_nonneg m) (View.length_elems hy.size_nonneg m)
    (View.wrote_fill hy)), View.mirrors_of_sim (D.multAT_apart hx hy ha)⟩

/-- **C106.**  The same for `CooMatrix`. -/
theorem C106_apart_coo [Zero α] [Add α] [Mul α] (C : Coo α) (hC : C.WF) (x y : View) (m : List α) (hx : x.InMem m) (hy : y.InMem m) (ha : x.Apart y) :
    y.Mirrors m (C.mult (x.elems m) (y.elems m)) (C.multView x y m) ∧
    y.Mirrors m (C.multAT (x.elems m) (y.elems m)) (C.multATView x y m) :=
  ⟨View.mirrors_of_sim ((scatter_apart hx hy ha).coo C hC (View.length_elems hx.size_nonneg m) (View.length_elems hy.size_nonneg m)
    (View.wrote_fill hy)), View.mirrors_of_sim ((scatter_apart hx hy ha).cooAT C hC (View.length_elems hx.size_nonneg m)
      (View.length_elems hy.size_nonneg m) (View.wrote_fill hy))⟩

/-- **C106.**  The same for `LilMatrix`. -/
theorem C106_apart_lil [Zero α] [Add α] [Mul α] (L : Lil α) (hL : L.WF) (x y : View) (m : List α) (hx : x.InMem m) (hy : y.InMem m) (ha : x.Apart y) :
    y.Mirrors m (L.mult (x.elems m) (y.elems m)) (L.multView x y m) ∧
    y.Mirrors m (L.multAT (x.elems m) (y.elems m)) (L.multATView x y m) :=
  ⟨View.mirrors_of_sim ((scatter_apart hx hy ha).lil L hL (View.length_elems hx.size_nonneg m) (View.length_elems hy.size_nonneg m)
    (View.wrote_fill hy)), View.mirrors_of_sim ((scatter_apart hx hy ha).lilAT L hL (View.length_elems hx.size_nonneg m)
      (View.length_elems hy.size_nonneg m) (View.wrote_fill hy))⟩

/-- **C106.**  The same for `BlockMatrix`. -/
theorem C106_apart_block [Zero α] [Add α] [Mul α] (B : BlockMat α) (hB : B.WF) (x y : View) (m : List α) (hx : x.InMem m) (hy : y.InMem m)
    (ha : x.Apart y) :
    y.Mirrors m (B.mult (x.elems m) (y.elems m)) (B.multView x y m) ∧
    y.Mirrors m (B.multAT (x.elems m) (y.elems m)) (B.multATView x y m) :=
  ⟨View.mirrors_of_sim ((scatter_apart hx hy ha).block B hB (View.length_elems hx.size_nonneg m) (View.length_elems hy.size_nonneg m)
    (View.wrote_fill hy)), View.mirrors_of_sim ((scatter_apart hx hy ha).blockAT B hB (View.length_elems hx.size_nonneg m)
      (View.length_elems hy.size_nonneg m) (View.wrote_fill hy))⟩

/-! ## The same view twice: functions that clear the result first -/

/-- The two halves of a run that only ever sees zeros. -/
theorem same_zero [NonUnitalNonAssocSemiring R] {v : View} {m : List R} {r r' : Res (List R)} (hs : 0 ≤ v.size)
    (h : Sim (fun z m' => v.Wrote m m' z ∧ z = List.replicate (v.elems m).length 0) r r') (hr : ∃ z, r = .ok z) :
    ∃ m', r' = .ok m' ∧ v.Wrote m m' (List.replicate v.size.toNat 0) := by
  obtain ⟨z, rfl⟩ := hr
  obtain ⟨m', h1, h2, rfl⟩ := h
  have := View.length_elems hs m
  rw [show (v.elems m).length = v.size.toNat by omega] at h2
  exact ⟨m', h1, h2⟩

theorem length_same [Zero α] {v : View} {m : List α} (hs : 0 ≤ v.size) :
    ((List.replicate (v.elems m).length (0 : α)).length : Int) = v.size := by
  rw [List.length_replicate, View.length_elems hs]

/-- **C106.**  `A.MultAT(x, x)` of a square `SparseMatrix` clears `x`, whatever the matrix and the vector. -/
theorem C106_same_zero [NonUnitalNonAssocSemiring R] (A : Csr R) (hA : A.WF) (v : View) (m : List R) (hv : v.InMem m)
    (hr : A.rows = v.size) (hc : A.cols = v.size) :
    ∃ m', A.multATView v v m = .ok m' ∧ v.Wrote m m' (List.replicate v.size.toNat 0) := by
  have hs := hv.size_nonneg
  refine same_zero hs ((scatter_same hv).csrAT A hA (length_same hs) (View.length_elems hs m) (wrote_fill_same hv)) ?_
  obtain ⟨z, h, -⟩ := C103_multAT A hA (List.replicate (v.elems m).length 0) (v.elems m) (by rw [length_same hs, hr]) (by rw [View.length_elems hs, hc])
  exact ⟨z, h⟩

/-- **C106.**  So does `D.Mult(x, x)` of a square `DenseMatrix`. -/
theorem C106_same_zero_dense [NonUnitalNonAssocSemiring R] (D : Dense R) (hD : D.WF) (v : View) (m : List R) (hv : v.InMem m)
    (hr : D.rows = v.size) (hc : D.cols = v.size) :
    ∃ m', D.multView v v m = .ok m' ∧ v.Wrote m m' (List.replicate v.size.toNat 0) := by
  have hs := hv.size_nonneg
  refine same_zero hs ((scatter_same hv).dense D (length_same hs) (View.length_elems hs m) (wrote_fill_same hv)) ?_
  obtain ⟨z, h, -⟩ := (C103_dense D hD (List.replicate (v.elems m).length 0) (v.elems m)).1 (by rw [length_same hs, hc]) (by rw [View.length_elems hs, hr])
  exact ⟨z, h⟩

/-- **C106.**  So do `C.Mult(x, x)` and `C.MultAT(x, x)` of a square `CooMatrix`. -/
theorem C106_same_zero_coo [NonUnitalNonAssocSemiring R] (C : Coo R) (hC : C.WF) (hsz : C.sizeSet = true) (v : View) (m : List R) (hv : v.InMem m)
    (hr : C.rows = v.size) (hc : C.cols = v.size) :
    (∃ m', C.multView v v m = .ok m' ∧ v.Wrote m m' (List.replicate v.size.toNat 0)) ∧
    ∃ m', C.multATView v v m = .ok m' ∧ v.Wrote m m' (List.replicate v.size.toNat 0) := by
  have hs := hv.size_nonneg
  refine ⟨same_zero hs ((scatter_same hv).coo C hC (length_same hs) (View.length_elems hs m) (wrote_fill_same hv)) ?_,
    same_zero hs ((scatter_same hv).cooAT C hC (length_same hs) (View.length_elems hs m) (wrote_fill_same hv)) ?_⟩
  · obtain ⟨z, h, -⟩ := C103_coo C hC hsz (List.replicate (v.elems m).length 0) (v.elems m) (by rw [length_same hs, hc]) (by rw [View.length_elems hs, hr])
    exact ⟨z, h⟩
  · obtain ⟨z, h, -⟩ := C21_multAT_partial C hC hsz (by rw [hr, hc]) (List.replicate (v.elems m).length 0) (v.elems m) (by rw [length_same hs, hr])
      (by rw [View.length_elems hs, hc])
    exact ⟨z, h⟩

/-- **C106.**  So do `L.Mult(x, x)` and `L.MultAT(x, x)` of a square `LilMatrix`. -/
theorem C106_same_zero_lil [NonUnitalNonAssocSemiring R] (L : Lil R) (hL : L.WF) (v : View) (m : List R) (hv : v.InMem m)
    (hr : L.rows = v.size) (hc : L.cols = v.size) :
    (∃ m', L.multView v v m = .ok m' ∧ v.Wrote m m' (List.replicate v.size.toNat 0)) ∧
    ∃ m', L.multATView v v m = .ok m' ∧ v.Wrote m m' (List.replicate v.size.toNat 0) := by
  have hs := hv.size_nonneg
  refine ⟨same_zero hs ((scatter_same hv).lil L hL (length_same hs) (View.length_elems hs m) (wrote_fill_same hv)) ?_,
    same_zero hs ((scatter_same hv).lilAT L hL (length_same hs) (View.length_elems hs m) (wrote_fill_same hv)) ?_⟩
  · obtain ⟨z, h, -⟩ := C103_lil L hL (List.replicate (v.elems m).length 0) (v.elems m) (by rw [length_same hs, hc]) (by rw [View.length_elems hs, hr])
    exact ⟨z, h⟩
  · obtain ⟨z, h, -⟩ := C21_lil_multAT_partial L hL (by rw [hr, hc]) (List.replicate (v.elems m).length 0) (v.elems m) (by rw [length_same hs, hr])
      (by rw [View.length_elems hs, hc])
    exact ⟨z, h⟩

/-- **C106.**  So do `B.Mult(x, x)` and `B.MultAT(x, x)` of a square `BlockMatrix`. -/
theorem C106_same_zero_block [NonUnitalNonAssocSemiring R] (B : BlockMat R) (hB : B.WF) (v : View) (m : List R) (hv : v.InMem m)
    (hr : B.rows = v.size) (hc : B.cols = v.size) :
    (∃ m', B.multView v v m = .ok m' ∧ v.Wrote m m' (List.replicate v.size.toNat 0)) ∧
    ∃ m', B.multATView v v m = .ok m' ∧ v.Wrote m m' (List.replicate v.size.toNat 0) := by
  have hs := hv.size_nonneg
  obtain ⟨C, hC, hm, ht⟩ := C39_mult B hB
  obtain ⟨C', hC', hw, hr', hc', -⟩ := C39_combine B hB
  obtain rfl : C = C' := Except.ok.inj (hC.symm.trans hC')
  refine ⟨same_zero hs ((scatter_same hv).block B hB (length_same hs) (View.length_elems hs m) (wrote_fill_same hv)) ?_,
    same_zero hs ((scatter_same hv).blockAT B hB (length_same hs) (View.length_elems hs m) (wrote_fill_same hv)) ?_⟩
  · obtain ⟨z, h, -⟩ := C103_mult C hw (List.replicate (v.elems m).length 0) (v.elems m) (by rw [length_same hs, hc', hc]) (by rw [View.length_elems hs, hr', hr])
    exact ⟨z, by rw [hm, h]⟩
  · obtain ⟨z, h, -⟩ := C103_multAT C hw (List.replicate (v.elems m).length 0) (v.elems m) (by rw [length_same hs, hr', hr]) (by rw [View.length_elems hs, hc', hc])
    exact ⟨z, by rw [ht, h]⟩

/-! ## The same view twice: functions that write element after element -/

/-- **C106.**  What `A.Mult(x, x)` of a square `SparseMatrix` leaves in `x`: row `i` is multiplied by the new values of the elements before `i` and the
old values of the others.  For any operations, in the order of the row. -/
theorem C106_same [Zero α] [Add α] [Mul α] (A : Csr α) (hA : A.WF) (v : View) (m : List α) (hv : v.InMem m) (hr : A.rows = v.size) (hc : A.cols = v.size) :
    ∃ m' z, A.multView v v m = .ok m' ∧ v.Wrote m m' z ∧ (z.length : Int) = v.size ∧
      ∀ i, 0 ≤ i → i < v.size →
        vecAt z i = addUp ((A.row i).map (fun e => e.2 * (if e.1 < i then vecAt z e.1 else vecAt (v.elems m) e.1))) :=
  A.mult_same hA hv hr hc

/-- **C106.**  `D.MultAT(x, x)` of a square `DenseMatrix`, likewise with the columns. -/
theorem C106_same_dense [Zero α] [Add α] [Mul α] (D : Dense α) (hD : D.WF) (v : View) (m : List α) (hv : v.InMem m) (hr : D.rows = v.size)
    (hc : D.cols = v.size) :
    ∃ m' z, D.multATView v v m = .ok m' ∧ v.Wrote m m' z ∧ (z.length : Int) = v.size ∧
      ∀ j, 0 ≤ j → j < v.size →
        vecAt z j = addUp ((iota D.rows.toNat).map (fun i => D.entry i j * (if i < j then vecAt z i else vecAt (v.elems m) i))) :=
  D.multAT_same hD hv hr hc

theorem sum_Ico_below [AddCommMonoid R] {n i : Int} (h : i ≤ n) (f : Int → R) :
    ∑ j ∈ Finset.Ico 0 n, (if j < i then f j else 0) = ∑ j ∈ Finset.Ico 0 i, f j := by
  rw [← Finset.sum_filter]
  apply Finset.sum_congr _ (fun _ _ => rfl)
  ext j
  simp only [Finset.mem_filter, Finset.mem_Ico]
  omega

theorem seq_split [NonUnitalNonAssocSemiring R] {n i : Int} (h : i ≤ n) (a z x : Int → R) :
    ∑ j ∈ Finset.Ico 0 n, a j * (if j < i then z j else x j)
      = ∑ j ∈ Finset.Ico 0 i, a j * z j + ∑ j ∈ Finset.Ico 0 n, (if j < i then 0 else a j * x j) := by
  rw [← sum_Ico_below h, ← Finset.sum_add_distrib]
  apply Finset.sum_congr rfl
  intro j _
  split
  · rw [add_zero]
  · rw [zero_add]

/-- In place is right if the part below the diagonal times the matrix is that part. -/
theorem seq_right [Ring R] {n : Int} (a : Int → Int → R) (x z : Int → R)
    (hz : ∀ i, 0 ≤ i → i < n → z i = ∑ j ∈ Finset.Ico 0 n, a i j * (if j < i then z j else x j))
    (hL : ∀ i k, 0 ≤ i → i < n → 0 ≤ k → k < n → ∑ j ∈ Finset.Ico 0 i, a i j * a j k = if k < i then a i k else 0) :
    ∀ k : Nat, (k : Int) < n → z k = ∑ j ∈ Finset.Ico 0 n, a k j * x j := by
  intro k
  induction k using Nat.strong_induction_on with
  | _ k ih =>
    intro hk
    rw [hz k (by omega) hk, seq_split (by omega)]
    have e1 : ∑ j ∈ Finset.Ico 0 (k : Int), a k j * z j = ∑ l ∈ Finset.Ico 0 n, (if l < (k : Int) then a k l * x l else 0) := by
      have : ∑ j ∈ Finset.Ico 0 (k : Int), a k j * z j = ∑ j ∈ Finset.Ico 0 (k : Int), ∑ l ∈ Finset.Ico 0 n, a k j * a j l * x l := by
        apply Finset.sum_congr rfl
        intro j hj
        have hj := Finset.mem_Ico.1 hj
        obtain ⟨q, rfl⟩ := Int.eq_ofNat_of_zero_le hj.1
        rw [ih q (by omega) (by omega), Finset.mul_sum]
        exact Finset.sum_congr rfl (fun l _ => (mul_assoc _ _ _).symm)
      rw [this, Finset.sum_comm]
      apply Finset.sum_congr rfl
      intro l hl
      have hl := Finset.mem_Ico.1 hl
      rw [← Finset.sum_mul, hL k l (by omega) hk hl.1 hl.2]
      split
      · rfl
      · rw [zero_mul]
    rw [e1, ← Finset.sum_add_distrib]
    apply Finset.sum_congr rfl
    intro j _
    split
    · rw [add_zero]
    · rw [zero_add]

/-- And only then. -/
theorem seq_needs [Ring R] {n k : Int} (a : Int → Int → R) (x z : Int → R) (hx : ∀ j, 0 ≤ j → j < n → x j = if j = k then 1 else 0) (k0 : 0 ≤ k) (k1 : k < n)
    (hz : ∀ i, 0 ≤ i → i < n → z i = ∑ j ∈ Finset.Ico 0 n, a i j * (if j < i then z j else x j))
    (hr : ∀ i, 0 ≤ i → i < n → z i = ∑ j ∈ Finset.Ico 0 n, a i j * x j) :
    ∀ i, 0 ≤ i → i < n → ∑ j ∈ Finset.Ico 0 i, a i j * a j k = if k < i then a i k else 0 := by
  have hzk : ∀ i, 0 ≤ i → i < n → z i = a i k := by
    intro i i0 i1
    rw [hr i i0 i1, Finset.sum_eq_single k]
    · rw [hx k k0 k1, if_pos rfl, mul_one]
    · intro j hj hne
      have hj := Finset.mem_Ico.1 hj
      rw [hx j hj.1 hj.2, if_neg hne, mul_zero]
    · intro h
      exact absurd (Finset.mem_Ico.2 ⟨k0, k1⟩) h
  intro i i0 i1
  have e := hz i i0 i1
  rw [seq_split (by omega), hzk i i0 i1] at e
  have e1 : ∑ j ∈ Finset.Ico 0 i, a i j * z j = ∑ j ∈ Finset.Ico 0 i, a i j * a j k := by
    apply Finset.sum_congr rfl
    intro j hj
    have hj := Finset.mem_Ico.1 hj
    rw [hzk j hj.1 (by omega)]
  have e2 : ∑ j ∈ Finset.Ico 0 n, (if j < i then 0 else a i j * x j) = if k < i then 0 else a i k := by
    rw [Finset.sum_eq_single k]
    · rw [hx k k0 k1, if_pos rfl, mul_one]
    · intro j hj hne
      have hj := Finset.mem_Ico.1 hj
      rw [hx j hj.1 hj.2, if_neg hne, mul_zero, ite_self]
    · intro h
      exact absurd (Finset.mem_Ico.2 ⟨k0, k1⟩) h
  rw [e1, e2] at e
  by_cases hk : k < i
  · rw [if_pos hk, add_zero] at e
    rw [if_pos hk, ← e]
  · rw [if_neg hk] at e
    rw [if_neg hk]
    exact right_eq_add.1 e

/-- A memory that shows a unit vector. -/
theorem unit_memory [Zero R] [One R] {v : View} (h0 : 0 ≤ v.off) (hs : 0 ≤ v.size) (k : Int) : ∃ m : List R, v.InMem m ∧
    ∀ j, 0 ≤ j → j < v.size → vecAt (v.elems m) j = if j = k then 1 else 0 := by
  refine ⟨vecFn (v.off + v.size).toNat (fun p => if p = v.off + k then 1 else 0), ⟨h0, hs, by simp⟩, ?_⟩
  intro j j0 j1
  rw [(View.is_elems hs _).vecAt_eq j0 j1, (is_vecFn _ _).vecAt_eq (by omega) (by omega)]
  congr 1
  apply propext
  omega

/-- The result on lists and the result in place are the same vector, or not. -/
theorem mirrors_iff [Zero R] {v : View} {m m' z u : List R} (hw : v.Wrote m m' z) : v.Mirrors m (.ok u) (.ok m') ↔ u = z := by
  constructor
  · rintro ⟨m'', h1, h2⟩
    cases h1
    rw [← h2.elems_eq, hw.elems_eq]
  · rintro rfl
    exact ⟨m', rfl, hw⟩

/-- **C106.**  `A.Mult(x, x)` gives `A x` for every `x` exactly if the part of the matrix below the diagonal, times the matrix, is that part again. -/
theorem C106_same_iff [Ring R] (A : Csr R) (hA : A.WF) (v : View) (h0 : 0 ≤ v.off) (hr : A.rows = v.size) (hc : A.cols = v.size) :
    (∀ m : List R, v.InMem m → v.Mirrors m (A.mult (v.elems m) (v.elems m)) (A.multView v v m)) ↔
      ∀ i k, 0 ≤ i → i < v.size → 0 ≤ k → k < v.size →
        ∑ j ∈ Finset.Ico 0 i, A.coef i j * A.coef j k = if k < i then A.coef i k else 0 := by
  have hs : 0 ≤ v.size := by rw [← hr]; exact hA.rows_nonneg
  have run : ∀ m : List R, v.InMem m → ∃ m' z u, A.multView v v m = .ok m' ∧ v.Wrote m m' z ∧ A.mult (v.elems m) (v.elems m) = .ok u ∧
      (∀ i, 0 ≤ i → i < v.size → vecAt z i = ∑ j ∈ Finset.Ico 0 v.size, A.coef i j * (if j < i then vecAt z j else vecAt (v.elems m) j)) ∧
      VecIs u v.size (fun i => ∑ j ∈ Finset.Ico 0 v.size, A.coef i j * vecAt (v.elems m) j) ∧ VecIs z v.size (vecAt z) := by
    intro m hv
    obtain ⟨m', z, hm, hw, hl, hz⟩ := A.mult_same hA hv hr hc
    obtain ⟨u, hu, hul, hu'⟩ := C01_mult A hA (v.elems m) (v.elems m) (by rw [View.length_elems hs, hc]) (by rw [View.length_elems hs, hr])
    refine ⟨m', z, u, hm, hw, hu, ?_, ⟨by rw [hul, hr], ?_⟩, by rw [← hl]; exact vecIs_vecAt z⟩
    · intro i i0 i1
      rw [hz i i0 i1, addUp, foldl_add_eq (fun a => a), zero_add, List.map_id', sum_row_eq (n := v.size) (r := A.row i)
        (fun e he => by have := Csr.mem_row_ok hA he; omega) (fun j => if j < i then vecAt z j else vecAt (v.elems m) j)]
      rfl
    · intro i i0 i1
      rw [hu' i i0 (by omega), Csr.mulVec, hc]
  constructor
  · intro h i k i0 i1 k0 k1
    obtain ⟨m, hv, hx⟩ := unit_memory (R := R) h0 hs k
    obtain ⟨m', z, u, hm, hw, hu, hz, hu', -⟩ := run m hv
    have := h m hv
    rw [hu, hm, mirrors_iff hw] at this
    subst this
    exact seq_needs A.coef (vecAt (v.elems m)) (vecAt u) hx k0 k1 hz (fun i i0 i1 => hu'.vecAt_eq i0 i1) i i0 i1
  · intro h m hv
    obtain ⟨m', z, u, hm, hw, hu, hz, hu', hz'⟩ := run m hv
    rw [hu, hm, mirrors_iff hw]
    refine hu'.unique (hz'.congr (fun i i0 i1 => ?_))
    obtain ⟨q, rfl⟩ := Int.eq_ofNat_of_zero_le i0
    exact seq_right A.coef (vecAt (v.elems m)) (vecAt z) hz h q i1

/-- **C106.**  In particular for upper triangular matrices. -/
theorem C106_same_upper [Ring R] (A : Csr R) (hA : A.WF) (v : View) (m : List R) (hv : v.InMem m) (hr : A.rows = v.size) (hc : A.cols = v.size)
    (hU : ∀ i j, 0 ≤ j → j < i → i < v.size → A.coef i j = 0) : v.Mirrors m (A.mult (v.elems m) (v.elems m)) (A.multView v v m) := by
  refine (C106_same_iff A hA v hv.off_nonneg hr hc).2 ?_ m hv
  intro i k _ i1 k0 _
  rw [Finset.sum_eq_zero (fun j hj => by rw [hU i j (Finset.mem_Ico.1 hj).1 (Finset.mem_Ico.1 hj).2 i1, zero_mul])]
  split
  · next h => rw [hU i k k0 h i1]
  · rfl

/-- **C106.**  `D.MultAT(x, x)` of a dense matrix gives `Dᵀ x` for every `x` exactly if the same holds of the transpose. -/
theorem C106_same_dense_iff [Ring R] (D : Dense R) (hD : D.WF) (v : View) (h0 : 0 ≤ v.off) (hr : D.rows = v.size) (hc : D.cols = v.size) :
    (∀ m : List R, v.InMem m → v.Mirrors m (D.multAT (v.elems m) (v.elems m)) (D.multATView v v m)) ↔
      ∀ i k, 0 ≤ i → i < v.size → 0 ≤ k → k < v.size →
        ∑ j ∈ Finset.Ico 0 i, D.entry j i * D.entry k j = if k < i then D.entry k i else 0 := by
  have hs : 0 ≤ v.size := by rw [← hr]; exact hD.rows_nonneg
  have conv : ∀ (j : Int) (f : Int → R), addUp ((iota D.rows.toNat).map (fun i => D.entry i j * f i)) = ∑ i ∈ Finset.Ico 0 v.size, D.entry i j * f i := by
    intro j f
    rw [addUp, foldl_add_eq (fun a => a), zero_add, List.map_id', ← hr]
    obtain ⟨n, hn⟩ : ∃ n : Nat, D.rows = n := ⟨D.rows.toNat, by omega⟩
    rw [hn, Int.toNat_natCast, sum_iota]
  have run : ∀ m : List R, v.InMem m → ∃ m' z u, D.multATView v v m = .ok m' ∧ v.Wrote m m' z ∧ D.multAT (v.elems m) (v.elems m) = .ok u ∧
      (∀ i, 0 ≤ i → i < v.size → vecAt z i = ∑ j ∈ Finset.Ico 0 v.size, D.entry j i * (if j < i then vecAt z j else vecAt (v.elems m) j)) ∧
      VecIs u v.size (fun i => ∑ j ∈ Finset.Ico 0 v.size, D.entry j i * vecAt (v.elems m) j) ∧ VecIs z v.size (vecAt z) := by
    intro m hv
    obtain ⟨m', z, hm, hw, hl, hz⟩ := D.multAT_same hD hv hr hc
    obtain ⟨u, hu, hu'⟩ := (C103_dense D hD (v.elems m) (v.elems m)).2 (by rw [View.length_elems hs, hr]) (by rw [View.length_elems hs, hc])
    refine ⟨m', z, u, hm, hw, hu, ?_, ?_, by rw [← hl]; exact vecIs_vecAt z⟩
    · intro i i0 i1
      rw [hz i i0 i1, conv i (fun j => if j < i then vecAt z j else vecAt (v.elems m) j)]
    · rw [hc] at hu'
      exact hu'.congr (fun i _ _ => conv i (vecAt (v.elems m)))
  constructor
  · intro h i k i0 i1 k0 k1
    obtain ⟨m, hv, hx⟩ := unit_memory (R := R) h0 hs k
    obtain ⟨m', z, u, hm, hw, hu, hz, hu', -⟩ := run m hv
    have := h m hv
    rw [hu, hm, mirrors_iff hw] at this
    subst this
    exact seq_needs (fun i j => D.entry j i) (vecAt (v.elems m)) (vecAt u) hx k0 k1 hz (fun i i0 i1 => hu'.vecAt_eq i0 i1) i i0 i1
  · intro h m hv
    obtain ⟨m', z, u, hm, hw, hu, hz, hu', hz'⟩ := run m hv
    rw [hu, hm, mirrors_iff hw]
    refine hu'.unique (hz'.congr (fun i i0 i1 => ?_))
    obtain ⟨q, rfl⟩ := Int.eq_ofNat_of_zero_le i0
    exact seq_right (fun i j => D.entry j i) (vecAt (v.elems m)) (vecAt z) hz h q i1

/-- **C106.**  That an in-place product is the product is false for `SparseMatrix::Mult` and `MultAT` and for `DenseMatrix::Mult` and `MultAT`: a
matrix, a vector and what is left in it.  The last example is the identity, `Mult` of which clears the vector when the matrix is dense. -/
theorem C106_same_false :
    (∃ A : Csr Int, A.WF ∧ A.mult [1, 2] [1, 2] = .ok [2, 1] ∧ A.multView ⟨0, 2⟩ ⟨0, 2⟩ [1, 2] = .ok [2, 2] ∧
      A.multAT [1, 2] [1, 2] = .ok [2, 1] ∧ A.multATView ⟨0, 2⟩ ⟨0, 2⟩ [1, 2] = .ok [0, 0]) ∧
    (∃ D : Dense Int, D.WF ∧ D.mult [1, 2] [1, 2] = .ok [1, 2] ∧ D.multView ⟨0, 2⟩ ⟨0, 2⟩ [1, 2] = .ok [0, 0]) ∧
    ∃ D : Dense Int, D.WF ∧ D.multAT [1, 2] [1, 2] = .ok [2, 1] ∧ D.multATView ⟨0, 2⟩ ⟨0, 2⟩ [1, 2] = .ok [2, 2] :=
  ⟨⟨⟨2, 2, [0, 1, 2], [1, 0], [1, 1]⟩, by decide, by decide, by decide, by decide, by decide⟩,
    ⟨⟨2, 2, [1, 0, 0, 1]⟩, by decide, by decide, by decide⟩, ⟨⟨2, 2, [0, 1, 1, 0]⟩, by decide, by decide, by decide⟩⟩

/-! ## BlockOperator -/

/-- A run on memory returns the same work vectors as the run on lists, and its result at the place of the view. -/
def BlockOp.Mirrors [Zero α] (v : View) (m : List α) (r r' : Res (BlockOp α × List α)) : Prop :=
  match r with
  | .ok (B, z) => ∃ m', r' = .ok (B, m') ∧ v.Wrote m m' z
  | .error e => r' = .error e

/-- **C106.**  `BlockOperator::Mult` and `MultAT` copy the argument before they write: they are right on any two views, however they overlap. -/
theorem C106_blockop [Zero α] [Add α] (B : BlockOp α) (x y : View) (m : List α) (hx : x.InMem m) (hy : y.InMem m) :
    BlockOp.Mirrors y m (B.mult (x.elems m) (y.elems m)) (B.multView x y m) ∧
    BlockOp.Mirrors y m (B.multAT (x.elems m) (y.elems m)) (B.multATView x y m) := by
  have hl := View.length_elems hy.size_nonneg m
  constructor
  · unfold BlockOp.multView
    rw [viewElems_eq hx, viewElems_eq hy, ok_bind, ok_bind]
    cases h : B.mult (x.elems m) (y.elems m) with
    | error e => exact rfl
    | ok r =>
      have hz : (r.2.length : Int) = y.size := by
        unfold BlockOp.mult at h
        obtain ⟨_, _, h⟩ := bind_eq_ok.1 h
        obtain ⟨_, _, h⟩ := bind_eq_ok.1 h
        obtain ⟨st, _, h⟩ := bind_eq_ok.1 h
        obtain ⟨_, ha, h⟩ := bind_eq_ok.1 h
        cases h
        have := cassert_ok_iff.1 ha
        change (st.1.length : Int) = y.size
        omega
      obtain ⟨m', h1, h2⟩ := View.copyOut hy hz
      refine ⟨m', ?_, h2⟩
      rw [ok_bind, h1, ok_bind]
  · unfold BlockOp.multATView
    rw [viewElems_eq hx, viewElems_eq hy, ok_bind, ok_bind]
    cases h : B.multAT (x.elems m) (y.elems m) with
    | error e => exact rfl
    | ok r =>
      have hz : (r.2.length : Int) = y.size := by
        unfold BlockOp.multAT at h
        obtain ⟨_, _, h⟩ := bind_eq_ok.1 h
        obtain ⟨_, _, h⟩ := bind_eq_ok.1 h
        obtain ⟨st, _, h⟩ := bind_eq_ok.1 h
        obtain ⟨_, ha, h⟩ := bind_eq_ok.1 h
        cases h
        have := cassert_ok_iff.1 ha
        change (st.1.length : Int) = y.size
        omega
      obtain ⟨m', h1, h2⟩ := View.copyOut hy hz
      refine ⟨m', ?_, h2⟩
      rw [ok_bind, h1, ok_bind]

/-! ## Examples -/

/-- C106: two halves of one memory are apart, and the product of the first half is written to the second. -/
example : ∃ A : Csr Int, A.WF ∧ View.InMem ⟨1, 2⟩ [9, 1, 2, 7, 7, 9] ∧ View.Apart ⟨1, 2⟩ ⟨3, 2⟩ ∧
    A.multView ⟨1, 2⟩ ⟨3, 2⟩ [9, 1, 2, 7, 7, 9] = .ok [9, 1, 2, 2, 1, 9] ∧ A.multATView ⟨1, 2⟩ ⟨3, 2⟩ [9, 1, 2, 7, 7, 9] = .ok [9, 1, 2, 2, 1, 9] :=
  ⟨⟨2, 2, [0, 1, 2], [1, 0], [1, 1]⟩, by decide, ⟨by decide, by decide, by decide⟩, fun p h => by unfold View.Has at h; simp only at h; omega,
    by decide, by decide⟩

/-- C106: an upper triangular matrix, in place. -/
example : ∃ A : Csr Int, A.WF ∧ (∀ i j, 0 ≤ j → j < i → i < 2 → A.coef i j = 0) ∧ A.multView ⟨1, 2⟩ ⟨1, 2⟩ [9, 1, 2, 9] = .ok [9, 13, 10, 9] ∧
    A.mult [1, 2] [1, 2] = .ok [13, 10] :=
  ⟨⟨2, 2, [0, 2, 3], [0, 1, 1], [3, 5, 5]⟩, by decide, fun i j h0 h1 h2 => by
    rw [show i = 1 by omega, show j = 0 by omega]
    decide, by decide, by decide⟩

/-- C106: a matrix that is not triangular but can be applied in place: its lower part `L` has `L A = L`. -/
example : ∃ A : Csr Int, A.WF ∧ A.coef 1 0 = 1 ∧ A.coef 1 0 * A.coef 0 0 = A.coef 1 0 ∧ A.coef 1 0 * A.coef 0 1 = 0 ∧
    A.multView ⟨0, 2⟩ ⟨0, 2⟩ [3, 4] = .ok [3, 11] ∧ A.mult [3, 4] [3, 4] = .ok [3, 11] :=
  ⟨⟨2, 2, [0, 1, 3], [0, 0, 1], [1, 1, 2]⟩, by decide, by decide, by decide, by decide, by decide, by decide⟩

/-- C106: coordinate, list and block matrices in place. -/
example : (∃ C : Coo Int, C.WF ∧ C.sizeSet = true ∧ C.multView ⟨0, 2⟩ ⟨0, 2⟩ [1, 2] = .ok [0, 0] ∧ C.mult [1, 2] [1, 2] = .ok [6, 2]) ∧
    ∃ L : Lil Int, L.WF ∧ L.multView ⟨0, 2⟩ ⟨0, 2⟩ [1, 2] = .ok [0, 0] ∧ L.mult [1, 2] [1, 2] = .ok [6, 2] :=
  ⟨⟨⟨2, 2, true, [(0, 1, 3), (1, 0, 2)]⟩, by decide, by decide, by decide, by decide⟩,
    ⟨⟨2, 2, true, [[(1, 3)], [(0, 2)]]⟩, by decide, by decide, by decide⟩⟩

/-- C106: a block operator on overlapping views. -/
example : ∃ B₀ B₁ B₂ : BlockOp Int, BlockOp.new [0, 2] [0, 2] = .ok B₀ ∧ B₀.setBlock 0 0 (Csr.toOp ⟨2, 2, [0, 1, 2], [1, 0], [1, 1]⟩) = .ok B₁ ∧
    B₁.multView ⟨0, 2⟩ ⟨1, 2⟩ [5, 6, 7] = .ok (B₂, [5, 6, 5]) :=
  ⟨_, _, _, rfl, rfl, rfl⟩

end Linalg
