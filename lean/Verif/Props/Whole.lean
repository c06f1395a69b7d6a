import Verif.Spec.Whole
import Verif.Props.Order
import Verif.Props.Floats
import Verif.Props.SparseMult
import Verif.Props.DenseBasic

/-!
# C132: products of whole numbers in double precision

The entries of matrices and vectors are whole numbers, or whole multiples of a power of two, and no sum of absolute values is above `2 ^ 53`.
Then the products, sums and inner products in double precision are those without rounding.
-/

namespace Linalg
open Cpp Floats Dbl

/-- The vector of the doubles `k * 2 ^ e`. -/
def dyVec (e : Int) (x : List Int) : List Dbl := x.map (dy e)

/-- The sparse matrix of the doubles `k * 2 ^ e`. -/
def dyCsr (e : Int) (A : Csr Int) : Csr Dbl := ⟨A.rows, A.cols, A.indptr, A.indices, A.data.map (dy e)⟩

/-- The dense matrix of the doubles `k * 2 ^ e`. -/
def dyDense (e : Int) (D : Dense Int) : Dense Dbl := ⟨D.rows, D.cols, D.data.map (dy e)⟩

/-- All numbers are at most `2 ^ 53`. -/
def Small (x : List Int) : Prop := ∀ k ∈ x, |k| ≤ cap

/-- The sum of the absolute values. -/
def absSum (l : List Int) : Int := (l.map (fun k => |k|)).sum

theorem absSum_nonneg (l : List Int) : 0 ≤ absSum l := by
  unfold absSum
  induction l with
  | nil => simp
  | cons a l ih =>
    simp only [List.map_cons, List.sum_cons]
    have := abs_nonneg a
    omega

theorem absSum_append (l m : List Int) : absSum (l ++ m) = absSum l + absSum m := by simp [absSum]

theorem abs_sum_le (l : List Int) : |l.sum| ≤ absSum l := by
  unfold absSum
  induction l with
  | nil => simp
  | cons a l ih =>
    simp only [List.map_cons, List.sum_cons]
    exact (abs_add_le _ _).trans (by omega)

theorem abs_le_absSum {l : List Int} {k : Int} (h : k ∈ l) : |k| ≤ absSum l := by
  obtain ⟨a, b, rfl⟩ := List.append_of_mem h
  rw [absSum_append]
  have h1 := absSum_nonneg a
  have h2 := absSum_nonneg b
  have : absSum (k :: b) = |k| + absSum b := by simp [absSum]
  omega

/-- **C132.**  Adding up whole numbers gives their sum. -/
theorem addUp_dy {e : Int} (he : Expo e) (l : List Int) (h : absSum l ≤ cap) : addUp (l.map (dy e)) = dy e l.sum := by
  induction l using List.reverseRecOn with
  | nil => exact (dy_zero e he).symm
  | append_singleton l a ih =>
    rw [absSum_append] at h
    have ha : absSum [a] = |a| := by simp [absSum]
    have h1 := absSum_nonneg l
    have h2 := abs_nonneg a
    have h3 := abs_sum_le l
    rw [List.map_append, List.map_singleton, addUp_concat, ih (by omega), dy_add he (by omega) (by omega), List.sum_append, List.sum_singleton]

theorem sum_eq_addUp (l : List Int) : addUp l = l.sum := by
  induction l using List.reverseRecOn with
  | nil => rfl
  | append_singleton l a ih => rw [addUp_concat, ih, List.sum_append, List.sum_singleton]

theorem addOn_dy {e : Int} (he : Expo e) (l : List Int) (h : absSum l ≤ cap) : addOn (l.map (dy e)) = dy e (addOn l) := by
  induction l using List.reverseRecOn with
  | nil => exact (dy_zero e he).symm
  | append_singleton l a ih =>
    rw [absSum_append] at h
    have ha : absSum [a] = |a| := by simp [absSum]
    have h1 := absSum_nonneg l
    have h2 := abs_nonneg a
    by_cases hl : l = []
    · subst hl
      rfl
    · have e2 : ∀ m : List Int, addOn m = m.sum := by
        intro m
        induction m using List.reverseRecOn with
        | nil => rfl
        | append_singleton m b im =>
          by_cases hm : m = []
          · subst hm
            simp [addOn]
          · rw [addOn_concat hm, im, List.sum_append, List.sum_singleton]
      have h3 := abs_sum_le l
      rw [← e2] at h3
      rw [List.map_append, List.map_singleton, addOn_concat (by simpa using hl), ih (by omega), dy_add he (by omega) (by omega), addOn_concat hl]

/-- **C132.**  The sum does not depend on the order. -/
theorem C132_order {e : Int} (he : Expo e) (l m : List Int) (hp : l.Perm m) (h : absSum l ≤ cap) : addUp (l.map (dy e)) = addUp (m.map (dy e)) := by
  have h2 : absSum m = absSum l := ((hp.map _).sum_eq).symm
  rw [addUp_dy he l h, addUp_dy he m (by omega), hp.sum_eq]

theorem vecAt_dy {e : Int} (he : Expo e) (x : List Int) (i : Int) : vecAt (dyVec e x) i = dy e (vecAt x i) := by
  unfold vecAt dyVec
  split
  · rw [List.getD_eq_getElem?_getD, List.getD_eq_getElem?_getD, List.getElem?_map]
    cases x[i.toNat]? with
    | none => exact (dy_zero e he).symm
    | some a => rfl
  · exact (dy_zero e he).symm

theorem Small.vecAt {x : List Int} (h : Small x) (i : Int) : |vecAt x i| ≤ cap := by
  unfold Linalg.vecAt
  split
  · rw [List.getD_eq_getElem?_getD]
    cases e : x[i.toNat]? with
    | none => simp [cap_nonneg]
    | some a => exact h a (List.mem_of_getElem? e)
  · simp [cap_nonneg]

theorem wf_dy {A : Csr Int} (hA : A.WF) (e : Int) : (dyCsr e A).WF :=
  ⟨hA.rows_nonneg, hA.cols_nonneg, hA.indptr_len, hA.indptr_first, hA.indptr_mono, by simpa [dyCsr] using hA.indptr_last, by simpa [dyCsr] using hA.indices_len,
    hA.cols_ok⟩

theorem row_dy (A : Csr Int) (e i : Int) : (dyCsr e A).row i = (A.row i).map (fun p => (p.1, dy e p.2)) := by
  unfold Csr.row dyCsr
  simp only
  split
  · have : A.indices.zip (A.data.map (dy e)) = (A.indices.zip A.data).map (fun p => (p.1, dy e p.2)) := by
      rw [List.zip_map_right]; rfl
    rw [this, ← List.map_drop, ← List.map_take]
  · rfl

theorem mem_row_data {A : Csr Int} {i : Int} {p : Int × Int} (h : p ∈ A.row i) : p.2 ∈ A.data := by
  unfold Csr.row at h
  split at h
  · exact (List.of_mem_zip (List.mem_of_mem_drop (List.mem_of_mem_take h))).2
  · cases h

theorem column_dy (A : Csr Int) (e j : Int) : (dyCsr e A).column j = (A.column j).map (fun p => (p.1, dy e p.2)) := by
  unfold Csr.column
  rw [List.map_flatMap]
  apply List.flatMap_congr
  intro i _
  rw [row_dy, List.filter_map, List.map_map, List.map_map]
  rfl

theorem mem_column_data {A : Csr Int} {j : Int} {p : Int × Int} (h : p ∈ A.column j) : p.2 ∈ A.data := by
  unfold Csr.column at h
  obtain ⟨i, -, h⟩ := List.mem_flatMap.mp h
  obtain ⟨q, hq, rfl⟩ := List.mem_map.mp h
  exact mem_row_data (p := q) (List.mem_filter.mp hq).1

/-- The products of the entries of a list with those of a vector. -/
theorem products_dy {e f : Int} (he : Expo e) (hf : Expo f) (l : List (Int × Int)) (g : Int → Int) (hl : ∀ p ∈ l, |p.2| ≤ cap) (hg : ∀ i, |g i| ≤ cap) :
    (l.map (fun p => (p.1, dy e p.2))).map (fun p => p.2 * dy f (g p.1)) = (l.map (fun p => p.2 * g p.1)).map (dy (e + f)) := by
  rw [List.map_map, List.map_map]
  apply List.map_congr_left
  intro p hp
  exact dy_mul he hf (hl p hp) (hg _)

theorem row_sum {A : Csr Int} (hA : A.WF) (x : List Int) (hx : (x.length : Int) = A.cols) {i : Int} (h0 : 0 ≤ i) (h1 : i < A.rows) :
    ((A.row i).map (fun p => p.2 * vecAt x p.1)).sum = A.mulVec x i := by
  have hr := hA.rows_nonneg
  obtain ⟨y, e1, h2, h3⟩ := C01_mult A hA x (List.replicate A.rows.toNat 0) hx (by simp; omega)
  obtain ⟨z, e2, h4⟩ := C103_mult A hA x (List.replicate A.rows.toNat 0) hx (by simp; omega)
  rw [e1] at e2
  obtain rfl : y = z := by simpa using e2
  have := h4.get_eq i h0 h1
  rw [h3 i h0 h1, sum_eq_addUp] at this
  simpa using this.symm

theorem column_sum {A : Csr Int} (hA : A.WF) (x : List Int) (hx : (x.length : Int) = A.rows) {j : Int} (h0 : 0 ≤ j) (h1 : j < A.cols) :
    ((A.column j).map (fun p => p.2 * vecAt x p.1)).sum = A.tMulVec x j := by
  have hr := hA.cols_nonneg
  obtain ⟨y, e1, h2, h3⟩ := C02_multAT A hA x (List.replicate A.cols.toNat 0) hx (by simp; omega)
  obtain ⟨z, e2, h4⟩ := C103_multAT A hA x (List.replicate A.cols.toNat 0) hx (by simp; omega)
  rw [e1] at e2
  obtain rfl : y = z := by simpa using e2
  have := h4.get_eq j h0 h1
  rw [h3 j h0 h1, sum_eq_addUp] at this
  simpa using this.symm

/-- **C132.**  The product of a sparse matrix with a vector is `A x`, without rounding, if in every row the absolute values of the products add up to at
most `2 ^ 53`. -/
theorem C132_mult (A : Csr Int) (hA : A.WF) (x : List Int) (y : List Dbl) (hx : (x.length : Int) = A.cols) (hy : (y.length : Int) = A.rows) (e f : Int)
    (he : Expo e) (hf : Expo f) (hef : Expo (e + f)) (hs : Small A.data) (hsx : Small x)
    (hb : ∀ i, 0 ≤ i → i < A.rows → absSum ((A.row i).map (fun p => p.2 * vecAt x p.1)) ≤ cap) :
    ∃ y', (dyCsr e A).mult (dyVec f x) y = .ok y' ∧ VecIs y' A.rows (fun i => dy (e + f) (A.mulVec x i)) := by
  obtain ⟨y', e1, h1⟩ := C103_mult (dyCsr e A) (wf_dy hA e) (dyVec f x) y (by simpa [dyVec, dyCsr] using hx) hy
  refine ⟨y', e1, h1.length_eq, fun i i0 i1 => ?_⟩
  rw [h1.get_eq i i0 i1, row_dy]
  simp only [vecAt_dy hf]
  rw [products_dy he hf _ (vecAt x) (fun p hp => hs _ (mem_row_data hp)) hsx.vecAt, addUp_dy hef _ (hb i i0 i1), row_sum hA x hx i0 i1]

/-- **C132.**  So is the product with the transpose, if the same holds for every column. -/
theorem C132_multAT (A : Csr Int) (hA : A.WF) (x : List Int) (y : List Dbl) (hx : (x.length : Int) = A.rows) (hy : (y.length : Int) = A.cols) (e f : Int)
    (he : Expo e) (hf : Expo f) (hef : Expo (e + f)) (hs : Small A.data) (hsx : Small x)
    (hb : ∀ j, 0 ≤ j → j < A.cols → absSum ((A.column j).map (fun p => p.2 * vecAt x p.1)) ≤ cap) :
    ∃ y', (dyCsr e A).multAT (dyVec f x) y = .ok y' ∧ VecIs y' A.cols (fun j => dy (e + f) (A.tMulVec x j)) := by
  obtain ⟨y', e1, h1⟩ := C103_multAT (dyCsr e A) (wf_dy hA e) (dyVec f x) y (by simpa [dyVec, dyCsr] using hx) hy
  refine ⟨y', e1, h1.length_eq, fun j j0 j1 => ?_⟩
  rw [h1.get_eq j j0 j1, column_dy]
  simp only [vecAt_dy hf]
  rw [products_dy he hf _ (vecAt x) (fun p hp => hs _ (mem_column_data hp)) hsx.vecAt, addUp_dy hef _ (hb j j0 j1), column_sum hA x hx j0 j1]

/-! ## The product of sparse matrices -/

theorem accum_fst {α β : Type} [Add α] [Add β] (D : List (Int × α)) (E : List (Int × β)) (h : D.map Prod.fst = E.map Prod.fst) (a : Int × α) (b : Int × β)
    (hab : a.1 = b.1) : (accum D a).map Prod.fst = (accum E b).map Prod.fst := by
  have hl : D.length = E.length := by simpa using congrArg List.length h
  unfold accum
  rw [← h, ← hab]
  generalize (D.map Prod.fst).idxOf a.1 = k
  by_cases hk : k < D.length
  · rw [List.getElem?_eq_getElem hk, List.getElem?_eq_getElem (by omega : k < E.length)]
    simp only [List.map_set]
    rw [← h]
    congr 1
    have := congrArg (fun l => l[k]?) h
    simp only [List.getElem?_map, List.getElem?_eq_getElem hk, List.getElem?_eq_getElem (by omega : k < E.length)] at this
    simpa using this
  · rw [List.getElem?_eq_none (by omega), List.getElem?_eq_none (by omega)]
    simp [h, hab]

theorem foldl_accum_fst {α β : Type} [Add α] [Add β] (l : List (Int × α)) (m : List (Int × β)) (h : l.map Prod.fst = m.map Prod.fst)
    (D : List (Int × α)) (E : List (Int × β)) (hDE : D.map Prod.fst = E.map Prod.fst) :
    (l.foldl accum D).map Prod.fst = (m.foldl accum E).map Prod.fst := by
  induction l generalizing m D E with
  | nil =>
    cases m with
    | nil => exact hDE
    | cons b m => cases h
  | cons a l ih =>
    cases m with
    | nil => cases h
    | cons b m =>
      simp only [List.map_cons, List.cons.injEq] at h
      exact ih m h.2 _ _ (accum_fst D E hDE a b h.1)

/-- Adding up the values of equal keys. -/
theorem foldl_accum_dy {e : Int} (he : Expo e) (l : List (Int × Int)) (h : ∀ c, absSum ((l.filter (fun b => b.1 = c)).map Prod.snd) ≤ cap) :
    (l.map (fun p => (p.1, dy e p.2))).foldl accum [] = (l.foldl accum []).map (fun p => (p.1, dy e p.2)) := by
  have hf : ((l.map (fun p => (p.1, dy e p.2))).foldl accum []).map Prod.fst = (l.foldl accum []).map Prod.fst :=
    foldl_accum_fst _ _ (by rw [List.map_map]; rfl) [] [] rfl
  have hl : ((l.map (fun p => (p.1, dy e p.2))).foldl accum []).length = (l.foldl accum []).length := by simpa using congrArg List.length hf
  apply List.ext_getElem (by simpa using hl)
  intro k h1 h2
  rw [List.getElem_map]
  have h3 : k < (l.foldl accum []).length := by omega
  have hk := congrArg (fun l => l[k]?) hf
  simp only [List.getElem?_map, List.getElem?_eq_getElem h1, List.getElem?_eq_getElem h3, Option.map_some, Option.some.injEq] at hk
  have v1 := foldl_accum_ord _ _ (List.getElem_mem h1)
  have v2 := foldl_accum_ord _ _ (List.getElem_mem h3)
  refine Prod.ext hk ?_
  rw [v1, hk, v2, List.filter_map, List.map_map, ← addOn_dy he _ (h _), List.map_map]
  rfl

/-- **C132.**  The product of two sparse matrices has the entries it has for whole numbers, without rounding. -/
theorem C132_product (A B : Csr Int) (hA : A.WF) (hB : B.WF) (hdim : B.rows = A.cols) (e f : Int) (he : Expo e) (hf : Expo f) (hef : Expo (e + f))
    (hs : Small A.data) (ht : Small B.data) (hb : ∀ i j, 0 ≤ i → i < A.rows → 0 ≤ j → j < B.cols → absSum (A.meets B i j) ≤ cap) :
    ∃ P, A.multSparse B = .ok P ∧ (dyCsr e A).multSparse (dyCsr f B) = .ok (dyCsr (e + f) P) := by
  have key : ∀ {α : Type} [Zero α] [Add α] [Mul α] (n p : Int) (ra rb : List (List (Int × α))), 0 ≤ p → n = rb.length →
      (∀ r ∈ ra, ∀ e ∈ r, 0 ≤ e.1 ∧ e.1 < n) → (∀ r ∈ rb, ∀ e ∈ r, 0 ≤ e.1 ∧ e.1 < p) →
      (Csr.ofRows n ra).multSparse (Csr.ofRows p rb) = .ok (Csr.ofRows p (prodRows ra rb)) := by
    intro α _ _ _ n p ra rb hp hnb hra hrb
    obtain ⟨q, rfl⟩ : ∃ q : Nat, p = q := ⟨p.toNat, by omega⟩
    unfold Csr.multSparse
    have e : mkVec (Csr.ofRows q rb).cols (0 : Int) = .ok (List.replicate q 0) := mkVec_nat q 0
    rw [e, ok_bind, multSparseMarker_ofRows hnb hp hra hrb]
  have lift : ∀ (e n : Int) (rs : List (List (Int × Int))), dyCsr e (Csr.ofRows n rs) = Csr.ofRows n (rs.map (fun r => r.map (fun p => (p.1, dy e p.2)))) := by
    intro e n rs
    have ep : ptrs (rs.map (fun r => r.map (fun p => (p.1, dy e p.2)))) = ptrs rs := by
      apply ptrs_congr
      simp [Function.comp_def]
    unfold dyCsr Csr.ofRows
    simp only [List.length_map]
    rw [ep, ← List.map_flatten, List.map_map, List.map_map, List.map_map]
    rfl
  have ok : ∀ (e n : Int) (rs : List (List (Int × Int))), (∀ r ∈ rs, ∀ p ∈ r, 0 ≤ p.1 ∧ p.1 < n) →
      ∀ r ∈ rs.map (fun r => r.map (fun p => (p.1, dy e p.2))), ∀ p ∈ r, 0 ≤ p.1 ∧ p.1 < n := by
    intro e n rs h r hr p hp
    obtain ⟨r', hr', rfl⟩ := List.mem_map.mp hr
    obtain ⟨p', hp', rfl⟩ := List.mem_map.mp hp
    exact h r' hr' p' hp'
  obtain ⟨n, ra, hn, hra, rfl⟩ := hA.exists_rows
  obtain ⟨p, rb, hp, hrb, rfl⟩ := hB.exists_rows
  have hnb : n = rb.length := by simpa [Csr.ofRows] using hdim.symm
  refine ⟨_, key n p ra rb hp hnb hra hrb, ?_⟩
  rw [lift, lift, key n p _ _ hp (by simpa using hnb) (ok e n ra hra) (ok f p rb hrb), lift]
  congr 2
  unfold prodRows
  rw [List.map_map, List.map_map]
  apply List.map_congr_left
  intro r hr
  simp only [Function.comp_def]
  obtain ⟨k, hk, rfl⟩ := List.getElem_of_mem hr
  have hin := hra _ hr
  have hval : ∀ a ∈ ra[k], ∀ b ∈ rb.getD a.1.toNat [], |a.2| ≤ cap ∧ |b.2| ≤ cap := by
    intro a ha b hb'
    refine ⟨hs _ ?_, ht _ ?_⟩
    · exact List.mem_map_of_mem (List.mem_flatten_of_mem hr ha)
    · have h0 := hin a ha
      have hlt : a.1.toNat < rb.length := by omega
      rw [List.getD_eq_getElem?_getD, List.getElem?_eq_getElem hlt, Option.getD_some] at hb'
      exact List.mem_map_of_mem (List.mem_flatten_of_mem (List.getElem_mem hlt) hb')
  have hprod : prodsRow (rb.map (fun r => r.map (fun p => (p.1, dy f p.2)))) (ra[k].map (fun p => (p.1, dy e p.2)))
      = (prodsRow rb ra[k]).map (fun p => (p.1, dy (e + f) p.2)) := by
    unfold prodsRow
    rw [List.flatMap_map, List.map_flatMap]
    apply List.flatMap_congr
    intro a ha
    have h0 := hin a ha
    have hlt : a.1.toNat < rb.length := by omega
    have hv := hval a ha
    simp only [List.getD_eq_getElem?_getD, List.getElem?_map, List.getElem?_eq_getElem hlt, Option.getD_some, Option.map_some] at hv ⊢
    rw [List.map_map, List.map_map]
    apply List.map_congr_left
    intro b hb'
    exact Prod.ext rfl (dy_mul he hf (hv b hb').1 (hv b hb').2)
  rw [hprod, foldl_accum_dy hef]
  intro c
  by_cases hc : 0 ≤ c ∧ c < p
  swap
  · have : (prodsRow rb ra[k]).filter (fun b => b.1 = c) = [] := by
      rw [List.filter_eq_nil_iff]
      intro b hb' h
      obtain ⟨a, ha, h2⟩ := List.mem_flatMap.mp hb'
      obtain ⟨q, hq, rfl⟩ := List.mem_map.mp h2
      have hlt : a.1.toNat < rb.length := by have := hin a ha; omega
      rw [List.getD_eq_getElem?_getD, List.getElem?_eq_getElem hlt, Option.getD_some] at hq
      have := hrb _ (List.getElem_mem hlt) q hq
      have h3 : q.1 = c := of_decide_eq_true h
      exact hc ⟨by omega, by omega⟩
    rw [this]
    exact cap_nonneg
  refine le_of_eq_of_le ?_ (hb k c (by omega) (by simpa [Csr.ofRows] using hk) hc.1 hc.2)
  congr 1
  unfold Csr.meets prodsRow
  rw [Csr.row_ofRows n ra k hk, List.filter_flatMap, List.map_flatMap]
  apply List.flatMap_congr
  intro a ha
  rw [row_ofRows_getD p rb (hin a ha).1, List.filter_map, List.map_map]
  rfl

/-! ## Dense matrices and vectors -/

theorem wf_dyDense {D : Dense Int} (hD : D.WF) (e : Int) : (dyDense e D).WF := ⟨hD.rows_nonneg, hD.cols_nonneg, by simpa [dyDense] using hD.size⟩

theorem get_dyDense (D : Dense Int) (e i j : Int) : (dyDense e D).get i j = (D.get i j).map (dy e) := by
  unfold Dense.get Dense.checkIdx dyDense rd
  simp only
  by_cases h : i ≥ 0 ∧ j ≥ 0 ∧ i < D.rows ∧ j < D.cols
  · obtain ⟨h1, h2, h3, h4⟩ := h
    simp only [cassert_true h1, cassert_true h2, cassert_true h3, cassert_true h4, ok_bind, List.length_map]
    split
    · rw [List.getElem?_map]
      cases D.data[(i + j * D.rows).toNat]? <;> rfl
    · rfl
  · by_cases h1 : i ≥ 0
    · by_cases h2 : j ≥ 0
      · by_cases h3 : i < D.rows
        · have h4 : ¬ j < D.cols := by tauto
          simp only [cassert_true h1, cassert_true h2, cassert_true h3, cassert_false h4, ok_bind]
          rfl
        · simp only [cassert_true h1, cassert_true h2, cassert_false h3, ok_bind]
          rfl
      · simp only [cassert_true h1, cassert_false h2, ok_bind]
        rfl
    · simp only [cassert_false h1]
      rfl

theorem entry_dyDense {e : Int} (he : Expo e) (D : Dense Int) (i j : Int) : (dyDense e D).entry i j = dy e (D.entry i j) := by
  unfold Dense.entry
  rw [get_dyDense]
  cases D.get i j with
  | ok x => rfl
  | error x => exact (dy_zero e he).symm

theorem Small.entry {D : Dense Int} (h : Small D.data) (i j : Int) : |D.entry i j| ≤ cap := by
  unfold Dense.entry
  cases e : D.get i j with
  | error x => simp [cap_nonneg]
  | ok x =>
    refine h x ?_
    unfold Dense.get rd at e
    rw [bind_eq_ok] at e
    obtain ⟨_, -, e⟩ := e
    split at e
    · cases hx : D.data[(i + j * D.rows).toNat]? with
      | none => rw [hx] at e; cases e
      | some y =>
        rw [hx] at e
        obtain rfl : y = x := by simpa using e
        exact List.mem_of_getElem? hx
    · cases e

/-- **C132.**  The products of a dense matrix with a vector. -/
theorem C132_dense (D : Dense Int) (hD : D.WF) (x : List Int) (y : List Dbl) (e f : Int) (he : Expo e) (hf : Expo f) (hef : Expo (e + f))
    (hs : Small D.data) (hsx : Small x) :
    ((x.length : Int) = D.cols → (y.length : Int) = D.rows →
      (∀ i, 0 ≤ i → i < D.rows → absSum ((iota D.cols.toNat).map (fun j => D.entry i j * vecAt x j)) ≤ cap) →
      ∃ y', (dyDense e D).mult (dyVec f x) y = .ok y' ∧ VecIs y' D.rows (fun i => dy (e + f) (∑ j ∈ Finset.Ico 0 D.cols, D.entry i j * vecAt x j))) ∧
    ((x.length : Int) = D.rows → (y.length : Int) = D.cols →
      (∀ j, 0 ≤ j → j < D.cols → absSum ((iota D.rows.toNat).map (fun i => D.entry i j * vecAt x i)) ≤ cap) →
      ∃ y', (dyDense e D).multAT (dyVec f x) y = .ok y' ∧ VecIs y' D.cols (fun j => dy (e + f) (∑ i ∈ Finset.Ico 0 D.rows, D.entry i j * vecAt x i))) := by
  have hr := hD.rows_nonneg
  have hc := hD.cols_nonneg
  have hl : (dyVec f x).length = x.length := by simp [dyVec]
  constructor
  · intro hx hy hb
    obtain ⟨y', e1, h1⟩ := (C103_dense (dyDense e D) (wf_dyDense hD e) (dyVec f x) y).1 (by rw [hl]; exact hx) hy
    refine ⟨y', e1, h1.length_eq, fun i i0 i1 => ?_⟩
    obtain ⟨z, e2, h2⟩ := C36_mult D hD x (List.replicate D.rows.toNat 0) hx (by simp; omega)
    obtain ⟨z', e3, h3⟩ := (C103_dense D hD x (List.replicate D.rows.toNat 0)).1 hx (by simp; omega)
    rw [e2] at e3
    obtain rfl : z = z' := by simpa using e3
    have e4 := h2.get_eq i i0 i1
    rw [h3.get_eq i i0 i1, Except.ok.injEq, sum_eq_addUp] at e4
    rw [h1.get_eq i i0 i1, ← e4, ← addUp_dy hef _ (hb i i0 i1), List.map_map]
    congr 2
    apply List.map_congr_left
    intro j _
    rw [entry_dyDense he, vecAt_dy hf, dy_mul he hf (hs.entry i j) (hsx.vecAt j)]
    rfl
  · intro hx hy hb
    obtain ⟨y', e1, h1⟩ := (C103_dense (dyDense e D) (wf_dyDense hD e) (dyVec f x) y).2 (by rw [hl]; exact hx) hy
    refine ⟨y', e1, h1.length_eq, fun j j0 j1 => ?_⟩
    obtain ⟨z, e2, h2⟩ := C36_multAT D hD x (List.replicate D.cols.toNat 0) hx (by simp; omega)
    obtain ⟨z', e3, h3⟩ := (C103_dense D hD x (List.replicate D.cols.toNat 0)).2 hx (by simp; omega)
    rw [e2] at e3
    obtain rfl : z = z' := by simpa using e3
    have e4 := h2.get_eq j j0 j1
    rw [h3.get_eq j j0 j1, Except.ok.injEq, sum_eq_addUp] at e4
    rw [h1.get_eq j j0 j1, ← e4, ← addUp_dy hef _ (hb j j0 j1), List.map_map]
    congr 2
    apply List.map_congr_left
    intro i _
    rw [entry_dyDense he, vecAt_dy hf, dy_mul he hf (hs.entry i j) (hsx.vecAt i)]
    rfl

/-- **C132.**  The inner product, the sum, and the sum and difference of two vectors. -/
theorem C132_vector (x y : List Int) (e f : Int) (he : Expo e) (hf : Expo f) (hef : Expo (e + f)) (hsx : Small x) (hsy : Small y) :
    (y.length = x.length → absSum (List.zipWith (fun a b => a * b) x y) ≤ cap →
      Vec.inner (dyVec e x) (dyVec f y) = .ok (dy (e + f) (List.zipWith (fun a b => a * b) x y).sum)) ∧
    (absSum x ≤ cap → Vec.sum (dyVec e x) = dy e x.sum) ∧
    (y.length = x.length → Vec.update (fun u v => u + v) (dyVec e x) (dyVec e y) = .ok (dyVec e (List.zipWith (fun a b => a + b) x y)) ∧
      Vec.update (fun u v => u - v) (dyVec e x) (dyVec e y) = .ok (dyVec e (List.zipWith (fun a b => a - b) x y))) := by
  refine ⟨fun hl hb => ?_, fun hb => ?_, fun hl => ?_⟩
  · rw [(C103_vector (dyVec e x) (dyVec f y)).2 (by simpa [dyVec] using hl), ← addUp_dy hef _ hb, List.map_zipWith, dyVec, dyVec, List.zipWith_map]
    congr 2
    apply List.ext_getElem (by simp)
    intro k h1 h2
    simp only [List.getElem_zipWith]
    exact dy_mul he hf (hsx _ (List.getElem_mem _)) (hsy _ (List.getElem_mem _))
  · rw [(C103_vector (dyVec e x) (dyVec e x)).1, dyVec, addUp_dy he x hb]
  · have key : ∀ F : Dbl → Dbl → Dbl, Vec.update F (dyVec e x) (dyVec e y) = .ok (List.zipWith F (dyVec e x) (dyVec e y)) := by
      intro F
      have h1 : dyVec e x = vecFn x.length (vecAt (dyVec e x)) := by
        have := eq_vecFn_vecAt (dyVec e x)
        simpa [dyVec] using this
      have h2 : dyVec e y = vecFn x.length (vecAt (dyVec e y)) := by
        have := eq_vecFn_vecAt (dyVec e y)
        simpa [dyVec, hl] using this
      conv_lhs => rw [h1, h2, Vec.update_vecFn]
      congr 1
      apply List.ext_getElem (by simp [dyVec, hl])
      intro k k1 k2
      have k3 : k < x.length := by simpa using k1
      have k4 : k < y.length := by omega
      have g1 : vecAt (dyVec e x) k = dy e x[k] := by
        rw [vecAt_dy he]
        simp [vecAt, k3]
      have g2 : vecAt (dyVec e y) k = dy e y[k] := by
        rw [vecAt_dy he]
        simp [vecAt, k4]
      rw [List.getElem_zipWith]
      simp only [vecFn, List.getElem_map, List.getElem_range, g1, g2]
      simp only [dyVec, List.getElem_map]
    rw [key, key]
    constructor
    · congr 1
      apply List.ext_getElem (by simp [dyVec])
      intro k h1 h2
      simp only [dyVec, List.getElem_zipWith, List.getElem_map]
      exact dy_add he (hsx _ (List.getElem_mem _)) (hsy _ (List.getElem_mem _))
    · congr 1
      apply List.ext_getElem (by simp [dyVec])
      intro k h1 h2
      simp only [dyVec, List.getElem_zipWith, List.getElem_map]
      exact dy_sub he (hsx _ (List.getElem_mem _)) (hsy _ (List.getElem_mem _))

/-- **C132.**  The product of a sparse with a dense matrix. -/
theorem C132_multDense (A : Csr Int) (hA : A.WF) (B : Dense Int) (C : Dense Dbl) (hB : B.WF) (hd : B.rows = A.cols) (e f : Int) (he : Expo e) (hf : Expo f)
    (hef : Expo (e + f)) (hs : Small A.data) (ht : Small B.data)
    (hb : ∀ i k, 0 ≤ i → i < A.rows → 0 ≤ k → k < B.cols → absSum ((A.row i).map (fun p => p.2 * B.entry p.1 k)) ≤ cap) :
    ∃ E, (dyCsr e A).multDenseInto (dyDense f B) C = .ok E ∧
      E.Is A.rows B.cols (fun i k => dy (e + f) (∑ j ∈ Finset.Ico 0 A.cols, A.coef i j * B.entry j k)) := by
  obtain ⟨E, e1, h1⟩ := C103_multDense (dyCsr e A) (wf_dy hA e) (dyDense f B) C (wf_dyDense hB f) hd
  obtain ⟨F, e2, h2⟩ := C14_multDenseInto A hA B B hB hd
  obtain ⟨G, e3, h3⟩ := C103_multDense A hA B B hB hd
  rw [e2] at e3
  obtain rfl : F = G := by simpa using e3
  refine ⟨E, e1, ⟨h1.wf, h1.rows_eq, h1.cols_eq, fun i k i0 i1 k0 k1 => ?_⟩⟩
  have e4 := h2.get_eq i k i0 i1 k0 k1
  rw [h3.get_eq i k i0 i1 k0 k1, Except.ok.injEq, sum_eq_addUp] at e4
  rw [h1.get_eq i k i0 i1 k0 k1, ← e4, row_dy]
  simp only [entry_dyDense hf]
  rw [products_dy he hf _ (fun j => B.entry j k) (fun p hp => hs _ (mem_row_data hp)) (fun j => ht.entry j k), addUp_dy hef _ (hb i k i0 i1 k0 k1)]

/-! ## CG at the solution -/

/-- **C132.**  With whole numbers the residual at the solution is exactly zero, so CG with the absolute tolerance zero, started at the solution, divides
zero by zero: for `max_iter` at most 2 it returns NaN everywhere, for a larger one it throws. -/
theorem C132_pcg (A : Csr Int) (hA : A.WF) (n : Nat) (hn : 1 ≤ n) (hr : A.rows = n) (hc : A.cols = n) (x : List Int) (hx : x.length = n) (e f : Int)
    (he : Expo e) (hf : Expo f) (hef : Expo (e + f)) (hs : Small A.data) (hsx : Small x)
    (hb : ∀ i, 0 ≤ i → i < A.rows → absSum ((A.row i).map (fun p => p.2 * vecAt x p.1)) ≤ cap) (S : Pcg Dbl) (hS : S.A = (dyCsr e A).toOp) (hM : S.M = none)
    (hdot : S.dot = Vec.inner) (hrel : IsFin S.relTol) (habs : IsZero S.absTol) (w : PcgState Dbl) :
    (S.maxIter ≤ 2 → ∃ st, S.multF (dy 0 (-10 ^ 12)) (dyVec (e + f) (vecFn n (A.mulVec x))) (dyVec f x) w = .ok (2, st) ∧ st.x.length = n ∧ AllNan st.x) ∧
    (2 < S.maxIter → S.multF (dy 0 (-10 ^ 12)) (dyVec (e + f) (vecFn n (A.mulVec x))) (dyVec f x) w = .error .threw) := by
  have hwf := wf_dy hA e
  refine C128_pcg_solved S n hn (by rw [hS]; exact (dyCsr e A).runs hwf n hr hc) (fun u y z _ hu h => ?_) hM hdot _ (fun a ha => ?_) hrel habs _ _
    (by simp [dyVec]) (by simpa [dyVec] using hx) w (fun y z h i i0 i1 => ?_)
  · rw [hS] at h
    refine C128_csr_zero (dyCsr e A) hwf (fun a ha => ?_) u y z hu h
    obtain ⟨k, hk, rfl⟩ := List.mem_map.mp (show a ∈ A.data.map (dy e) from ha)
    exact (isFin_iff _).mpr ⟨_, dy_ext he (hs k hk)⟩
  · have h0 : a = 0 := ext_inj ((isZero_iff a).mp ha)
    subst h0
    decide +kernel
  · rw [hS] at h
    have h' : (dyCsr e A).mult (dyVec f x) y = .ok z := h
    have hy : (y.length : Int) = A.rows := by
      unfold Csr.mult at h'
      rw [bind_eq_ok] at h'
      obtain ⟨_, -, h'⟩ := h'
      rw [bind_eq_ok] at h'
      obtain ⟨_, h2, -⟩ := h'
      exact cassert_ok_iff.mp h2
    obtain ⟨y', e1, h1⟩ := C132_mult A hA x y (by rw [hc, hx]) hy e f he hf hef hs hsx hb
    rw [h'] at e1
    obtain rfl : z = y' := by simpa using e1
    rw [h1.vecAt_eq i0 (by omega), vecAt_dy hef, (is_vecFn n _).vecAt_eq i0 i1]
    have hm : |A.mulVec x i| ≤ cap := by
      rw [← row_sum hA x (by rw [hc, hx]) i0 (by omega)]
      exact (abs_sum_le _).trans (hb i i0 (by omega))
    rw [dy_sub hef hm hm, sub_self, dy_zero _ hef]
    exact ZeroLaws.zero

/-! ## Examples, and the bound -/

/-- The matrix `[[2, -1], [-1, 2]]`. -/
def wholeMat : Csr Int := ⟨2, 2, [0, 2, 4], [0, 1, 0, 1], [2, -1, -1, 2]⟩

theorem expo_small {e : Int} (h : -1000 ≤ e) (h2 : e ≤ 900) : Expo e := ⟨by omega, by omega⟩

/-- Entries `k / 4` and elements `k / 2`. -/
example : ∃ y', (dyCsr (-2) wholeMat).mult (dyVec (-1) [3, 5]) [0, 0] = .ok y' ∧ VecIs y' 2 (fun i => dy (-3) (wholeMat.mulVec [3, 5] i)) :=
  C132_mult wholeMat (by decide) [3, 5] [0, 0] rfl rfl (-2) (-1) (expo_small (by decide) (by decide)) (expo_small (by decide) (by decide))
    (expo_small (by decide) (by decide)) (by unfold Small; decide) (by unfold Small; decide) (by
      intro i i0 i1
      have : i < 2 := i1
      interval_cases i <;> decide)

example : ∃ y', (dyCsr (-2) wholeMat).multAT (dyVec (-1) [3, 5]) [0, 0] = .ok y' ∧ VecIs y' 2 (fun j => dy (-3) (wholeMat.tMulVec [3, 5] j)) :=
  C132_multAT wholeMat (by decide) [3, 5] [0, 0] rfl rfl (-2) (-1) (expo_small (by decide) (by decide)) (expo_small (by decide) (by decide))
    (expo_small (by decide) (by decide)) (by unfold Small; decide) (by unfold Small; decide) (by
      intro j j0 j1
      have : j < 2 := j1
      interval_cases j <;> decide)

example : ∃ P, wholeMat.multSparse wholeMat = .ok P ∧ (dyCsr 0 wholeMat).multSparse (dyCsr (-4) wholeMat) = .ok (dyCsr (0 + -4) P) :=
  C132_product wholeMat wholeMat (by decide) (by decide) rfl 0 (-4) (expo_small (by decide) (by decide)) (expo_small (by decide) (by decide))
    (expo_small (by decide) (by decide)) (by unfold Small; decide) (by unfold Small; decide) (by
      intro i j i0 i1 j0 j1
      have : i < 2 := i1
      have : j < 2 := j1
      interval_cases i <;> interval_cases j <;> decide)

example : Vec.inner (dyVec 0 [3, -5]) (dyVec (-1) [7, 2]) = .ok (dy (0 + -1) 11) :=
  (C132_vector [3, -5] [7, 2] 0 (-1) (expo_small (by decide) (by decide)) (expo_small (by decide) (by decide)) (expo_small (by decide) (by decide))
    (by unfold Small; decide) (by unfold Small; decide)).1 rfl (by decide)

/-- CG at the solution `[3, 5]`. -/
example : (⟨(dyCsr 0 wholeMat).toOp, none, 10, 0, 0, Vec.inner⟩ : Pcg Dbl).multF (dy 0 (-10 ^ 12)) (dyVec (0 + 0) (vecFn 2 (wholeMat.mulVec [3, 5])))
    (dyVec 0 [3, 5]) ⟨[], [], [], [], [], 0⟩ = .error .threw :=
  (C132_pcg wholeMat (by decide) 2 (by decide) rfl rfl [3, 5] rfl 0 0 (expo_small (by decide) (by decide)) (expo_small (by decide) (by decide))
    (expo_small (by decide) (by decide)) (by unfold Small; decide) (by unfold Small; decide) (by
      intro i i0 i1
      have : i < 2 := i1
      interval_cases i <;> decide) _ rfl rfl rfl (ZeroLaws.fin _ ZeroLaws.zero) ZeroLaws.zero _).2 (by decide)

/-- **C132.**  The bound cannot be raised by one: with `2 ^ 53 + 1` the one is lost, and what is returned depends on the order of the entries
(`2 ^ 53 + 1 + 1` is `2 ^ 53`, `1 + 1 + 2 ^ 53` is `2 ^ 53 + 2`). -/
theorem C132_bound_false :
    (⟨1, 2, [0, 2], [0, 1], [dy 0 1, dy 0 1]⟩ : Csr Dbl).mult [dy 0 (2 ^ 53), dy 0 1] [0] = .ok [dy 0 (2 ^ 53)] ∧
    (⟨1, 3, [0, 3], [0, 1, 2], [dy 0 1, dy 0 1, dy 0 1]⟩ : Csr Dbl).mult [dy 0 (2 ^ 53), dy 0 1, dy 0 1] [0] = .ok [dy 0 (2 ^ 53)] ∧
    (⟨1, 3, [0, 3], [2, 1, 0], [dy 0 1, dy 0 1, dy 0 1]⟩ : Csr Dbl).mult [dy 0 (2 ^ 53), dy 0 1, dy 0 1] [0] = .ok [dy 0 (2 ^ 53 + 2)] ∧
    dy 0 (2 ^ 53) ≠ dy 0 (2 ^ 53 + 2) := by decide +kernel

end Linalg
