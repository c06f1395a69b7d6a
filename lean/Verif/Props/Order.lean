import Verif.Proof.Order
import Verif.Props.SparseTranspose
import Verif.Props.Coo

/-!
# Which sums are formed, operation by operation

Nothing is asked of `+` and `*`, so the statements hold for rounded operations, bit for bit.
-/

namespace Linalg
open Cpp

variable {α : Type}

/-- **C103.**  `Mult(x, y)` leaves in element `i` the products of the entries of row `i`, added up from zero in storage order. -/
theorem C103_mult [Zero α] [Add α] [Mul α] (A : Csr α) (hA : A.WF) (x y : List α)
    (hx : (x.length : Int) = A.cols) (hy : (y.length : Int) = A.rows) :
    ∃ y', A.mult x y = .ok y' ∧ VecIs y' A.rows (fun i => addUp ((A.row i).map (fun e => e.2 * vecAt x e.1))) := by
  obtain ⟨n, rs, hn, hrs, rfl⟩ := hA.exists_rows
  exact ⟨_, mult_order hrs x y hx (by simpa [Csr.ofRows] using hy), is_vecFn _ _⟩

/-- **C103.**  `MultAT(x, y)` leaves in element `j` the products of the entries of column `j`, added up from zero from the top row down. -/
theorem C103_multAT [Zero α] [Add α] [Mul α] (A : Csr α) (hA : A.WF) (x y : List α)
    (hx : (x.length : Int) = A.rows) (hy : (y.length : Int) = A.cols) :
    ∃ y', A.multAT x y = .ok y' ∧ VecIs y' A.cols (fun j => addUp ((A.column j).map (fun e => e.2 * vecAt x e.1))) := by
  obtain ⟨n, rs, hn, hrs, rfl⟩ := hA.exists_rows
  refine ⟨_, multAT_order hrs x y (by simpa [Csr.ofRows] using hx) hy, ?_⟩
  rw [← hy]
  exact is_vecFn _ _

/-- **C103.**  `MultAT` gives the same bits as `Mult` with the transpose, for any vectors: the same result, and the same rejections. -/
theorem C103_transpose [Zero α] [Add α] [Mul α] (A : Csr α) (hA : A.WF) (x y : List α) :
    ∃ B, A.transpose = .ok B ∧ A.multAT x y = B.mult x y := by
  obtain ⟨B, hB, hBwf, hr, hc, -, hrow⟩ := C03_transpose A hA
  refine ⟨B, hB, ?_⟩
  by_cases hx : (x.length : Int) = A.rows
  · by_cases hy : (y.length : Int) = A.cols
    · obtain ⟨u, hu, hu'⟩ := C103_multAT A hA x y hx hy
      obtain ⟨v, hv, hv'⟩ := C103_mult B hBwf x y (by rw [hc]; exact hx) (by rw [hr]; exact hy)
      rw [hu, hv]
      congr 1
      rw [hr] at hv'
      rw [← hy] at hu' hv'
      rw [hu'.eq_vecFn, hv'.eq_vecFn]
      apply vecFn_congr
      intro j h0 h1
      rw [hrow j h0 (by omega)]
    · unfold Csr.multAT Csr.mult
      rw [cassert_true hx, cassert_true (p := (x.length : Int) = B.cols) (by rw [hc]; exact hx), cassert_false hy, cassert_false (p := (y.length : Int) = B.rows) (by rw [hr]; exact hy)]
      rfl
  · unfold Csr.multAT Csr.mult
    rw [cassert_false hx, cassert_false (p := (x.length : Int) = B.cols) (by rw [hc]; exact hx)]
    rfl

/-- **C103.**  The product with a dense matrix gives, column by column, the bits of the product with the column. -/
theorem C103_multDense [Zero α] [Add α] [Mul α] (A : Csr α) (hA : A.WF) (B C : Dense α) (hB : B.WF) (hs : B.rows = A.cols) :
    ∃ E, A.multDenseInto B C = .ok E ∧ E.Is A.rows B.cols (fun i k => addUp ((A.row i).map (fun e => e.2 * B.entry e.1 k))) := by
  obtain ⟨n, rs, hn, hrs, rfl⟩ := hA.exists_rows
  have hBi := hB.is_entry
  have hc := hB.cols_nonneg
  obtain ⟨K, hK⟩ : ∃ K : Nat, B.cols = K := ⟨B.cols.toNat, by omega⟩
  obtain ⟨f, hf⟩ := Dense.setSize_ofFn C rs.length K
  refine ⟨_, ?_, by rw [hK]; exact Dense.is_ofFn rs.length K _⟩
  unfold Csr.multDenseInto
  rw [cassert_true hs, ok_bind, hK]
  have e : C.setSize (Csr.ofRows n rs).rows (K : Int) = _ := hf
  rw [e, ok_bind]
  simp only [Dense.fill_ofFn]
  refine Dense.fullLoop (m := rs.length) (n := K) _ _ (fun i k D => _) ?_
  intro i k h hi0 hi1 hk0 hk1 _
  obtain ⟨p, rfl⟩ : ∃ p : Nat, i = p := ⟨i.toNat, by omega⟩
  have hp : p < rs.length := by omega
  rw [Csr.forRow_ofRows n rs p hp _ _ (fun e val => .ok (val + e.2 * B.entry e.1 k))]
  · have := (foldlM_eq_foldl (l := rs[p]) (f := fun (val : α) e => (.ok (val + e.2 * B.entry e.1 k) : Res α))
      (g := fun val e => val + e.2 * B.entry e.1 k) (fun _ => True) (s := (0 : α)) trivial
      (fun _ _ _ _ => ⟨rfl, trivial⟩)).1
    rw [this, ok_bind, Csr.row_ofRows n rs p hp, addUp, List.foldl_map]
  · intro m hm s
    have he := hrs _ (List.getElem_mem hp) _ (List.getElem_mem hm)
    rw [rd_data_ofRows n rs p m hp hm, rd_indices_ofRows n rs p m hp hm]
    simp only [ok_bind]
    rw [hBi.get_eq _ k he.1 (by rw [hs]; exact he.2) hk0 (by omega)]
    rfl

/-- The products that meet at `(i, j)` in the product of two sparse matrices, in the order of the stored entries of row `i` of the first. -/
def Csr.meets [Mul α] (A B : Csr α) (i j : Int) : List α :=
  (A.row i).flatMap (fun a => ((B.row a.1).filter (fun b => b.1 = j)).map (fun b => a.2 * b.2))

/-- **C103.**  Each entry of the product of two sparse matrices is the sum of the products that meet there, added in that order
starting with the first. -/
theorem C103_product [Zero α] [Add α] [Mul α] (A B : Csr α) (hA : A.WF) (hB : B.WF) (hdim : B.rows = A.cols) :
    ∃ P, A.multSparse B = .ok P ∧ P.WF ∧ P.rows = A.rows ∧ P.cols = B.cols ∧
      ∀ i, 0 ≤ i → i < A.rows → ((P.row i).map Prod.fst).Nodup ∧
        (∀ j, j ∈ (P.row i).map Prod.fst ↔ A.meets B i j ≠ []) ∧ ∀ e ∈ P.row i, e.2 = addOn (A.meets B i e.1) := by
  obtain ⟨n, ra, hn, hra, rfl⟩ := hA.exists_rows
  obtain ⟨p, rb, hp, hrb, rfl⟩ := hB.exists_rows
  have hnb : n = rb.length := by simpa [Csr.ofRows] using hdim.symm
  obtain ⟨q, hq⟩ : ∃ q : Nat, p = q := ⟨p.toNat, by omega⟩
  have hok : ∀ r ∈ prodRows ra rb, ∀ e ∈ r, 0 ≤ e.1 ∧ e.1 < p := by
    intro r hr
    obtain ⟨r', _, rfl⟩ := List.mem_map.mp hr
    exact foldl_accum_ok (prodsRow_ok hrb r')
  have hrun : (Csr.ofRows n ra).multSparse (Csr.ofRows p rb) = .ok (Csr.ofRows p (prodRows ra rb)) := by
    unfold Csr.multSparse
    have e : mkVec (Csr.ofRows p rb).cols (0 : Int) = .ok (List.replicate q 0) := by
      subst hq
      exact mkVec_nat q 0
    rw [e, ok_bind, multSparseMarker_ofRows hnb hp hra hrb]
  refine ⟨_, hrun, Csr.wf_ofRows hp hok, by simp [Csr.ofRows, prodRows], rfl, ?_⟩
  intro i h0 h1
  obtain ⟨k, rfl⟩ : ∃ k : Nat, i = k := ⟨i.toNat, by omega⟩
  have hk : k < ra.length := by
    have : (k : Int) < ra.length := h1
    omega
  have hk' : k < (prodRows ra rb).length := by simpa [prodRows] using hk
  have hrow : (Csr.ofRows p (prodRows ra rb)).row (k : Int) = (prodsRow rb ra[k]).foldl accum [] := by
    rw [Csr.row_ofRows p _ k hk']
    simp [prodRows]
  have hmeets : ∀ j, ((prodsRow rb ra[k]).filter (fun b => b.1 = j)).map Prod.snd = (Csr.ofRows n ra).meets (Csr.ofRows p rb) k j := by
    intro j
    unfold Csr.meets prodsRow
    rw [Csr.row_ofRows n ra k hk, List.filter_flatMap, List.map_flatMap]
    have hin := hra _ (List.getElem_mem hk)
    have hall : ∀ a ∈ ra[k], List.map Prod.snd (List.filter (fun b => decide (b.1 = j)) (List.map (fun b => (b.1, a.2 * b.2)) (rb.getD a.1.toNat [])))
        = List.map (fun b => a.2 * b.2) (List.filter (fun b => decide (b.1 = j)) ((Csr.ofRows p rb).row a.1)) := by
      intro a ha
      rw [row_ofRows_getD p rb (hin a ha).1, List.filter_map, List.map_map]
      rfl
    exact List.flatMap_congr hall
  rw [hrow]
  refine ⟨foldl_accum_nodup _ [] (by simp), ?_, ?_⟩
  · intro j
    rw [foldl_accum_mem, ← hmeets j]
    simp only [List.map_nil, List.not_mem_nil, false_or, ne_eq, List.map_eq_nil_iff, List.filter_eq_nil_iff]
    rw [List.mem_map]
    constructor
    · rintro ⟨b, hb, rfl⟩ h
      exact h b hb (by simp)
    · intro h
      by_contra hc
      exact h (fun a ha haj => hc ⟨a, ha, by simpa using haj⟩)
  · intro e he
    rw [foldl_accum_ord _ e he, hmeets]

/-- **C103.**  The dense products: row `i` of `Mult` from the left column on, column `j` of `MultAT` from the top row down. -/
theorem C103_dense [Zero α] [Add α] [Mul α] (D : Dense α) (hD : D.WF) (x y : List α) :
    ((x.length : Int) = D.cols → (y.length : Int) = D.rows → ∃ y', D.mult x y = .ok y' ∧
      VecIs y' D.rows (fun i => addUp ((iota D.cols.toNat).map (fun j => D.entry i j * vecAt x j)))) ∧
    ((x.length : Int) = D.rows → (y.length : Int) = D.cols → ∃ y', D.multAT x y = .ok y' ∧
      VecIs y' D.cols (fun j => addUp ((iota D.rows.toNat).map (fun i => D.entry i j * vecAt x i)))) := by
  refine ⟨fun hx hy => ⟨_, D.mult_order hD x y hx hy, ?_⟩, fun hx hy => ⟨_, D.multAT_order hD x y hx hy, ?_⟩⟩
  · rw [← hy]; exact is_vecFn _ _
  · rw [← hy]; exact is_vecFn _ _

/-- **C103.**  The product of a coordinate matrix: the entries of row `i` in the order in which they were added. -/
theorem C103_coo [Zero α] [Add α] [Mul α] (C : Coo α) (hC : C.WF) (hs : C.sizeSet = true) (x y : List α)
    (hx : (x.length : Int) = C.cols) (hy : (y.length : Int) = C.rows) :
    ∃ y', C.mult x y = .ok y' ∧
      VecIs y' C.rows (fun i => addUp ((C.entries.filter (fun e => e.1 = i)).map (fun e => e.2.2 * vecAt x e.2.1))) := by
  have hin := hC.in_size
  rw [Coo.findSize_sized hs] at hin
  refine ⟨_, ?_, by rw [← hy]; exact is_vecFn _ _⟩
  unfold Coo.mult
  rw [cassert_true hy.symm, cassert_true hx.symm]
  simp only [ok_bind, replicate_vecFn]
  rw [foldlM_addOrd C.entries (fun e => e.1) (fun e => e.2.2 * vecAt x e.2.1)
    (fun e he => by have := (hin e he).1; simp only at this; omega)]
  · rfl
  · intro out e he
    have := (hin e he).2
    rw [vrd_vecAt x this.1 (by simp only at this; omega), ok_bind]

/-- **C103.**  The product of a list-of-lists matrix: the entries of row `i` in the order of its list. -/
theorem C103_lil [Zero α] [Add α] [Mul α] (L : Lil α) (hL : L.WF) (x y : List α)
    (hx : (x.length : Int) = L.cols) (hy : (y.length : Int) = L.rows) :
    ∃ y', L.mult x y = .ok y' ∧
      VecIs y' L.rows (fun i => addUp ((L.entries.getD i.toNat []).map (fun e => e.2 * vecAt x e.1))) := by
  have hlen := hL.rows_len
  have hfs : L.findSize = (L.rows, L.cols) := by unfold Lil.findSize; rw [if_pos hL.sized]
  refine ⟨_, ?_, by rw [← hy]; exact is_vecFn y.length _⟩
  unfold Lil.mult
  rw [hfs, cassert_true hy.symm, cassert_true hx.symm]
  simp only [ok_bind, replicate_vecFn]
  rw [show (L.entries.length : Int) = (y.length : Int) by omega]
  apply fillLoop'
  intro i h h0 h1 hh
  obtain ⟨k, rfl⟩ : ∃ k : Nat, i = k := ⟨i.toNat, by omega⟩
  have hk : k < L.entries.length := by omega
  have hok := hL.cols_ok _ (List.getElem_mem hk)
  rw [rd_nat hk, ok_bind, foldlM_addOrd (n := y.length) L.entries[k] (fun _ => (k : Int)) (fun e => e.2 * vecAt x e.1)
    (fun e he => ⟨h0, h1⟩) h _ (by
      intro out e he
      have := hok e he
      rw [vrd_vecAt x this.1 (by omega), ok_bind])]
  congr 1
  apply vecFn_congr
  intro a _ _
  by_cases ha : a = (k : Int)
  · subst ha
    have hg : L.entries.getD (k : Int).toNat [] = L.entries[k] := by simp [hk]
    rw [if_pos rfl, hh, hg, List.filter_eq_self.2 (by simp)]
    rfl
  · rw [if_neg ha, List.filter_eq_nil_iff.2 (by simp [Ne.symm ha])]
    rfl

/-- **C103.**  The reading functions of vectors: the sum, and the inner product, from the first element on. -/
theorem C103_vector [Zero α] [Add α] [Mul α] (x y : List α) :
    Vec.sum x = addUp x ∧ (y.length = x.length → Vec.inner x y = .ok (addUp (List.zipWith (fun a b => a * b) x y))) := by
  refine ⟨rfl, fun h => ?_⟩
  unfold Vec.inner
  rw [cassert_true h, ok_bind, addUp, ← List.map_uncurry_zip_eq_zipWith, List.foldl_map]
  rfl

/-- C103: with an addition that stops at ten the order matters, and the products differ from those of the integers. -/
example : ∃ A : Csr Int, A.WF ∧
    (@Csr.mult Int _ ⟨fun a b => min (a + b) 10⟩ _ A [1, 1, 1] [0, 0] = .ok [2, 8]) ∧ A.mult [1, 1, 1] [0, 0] = .ok [8, 8] ∧
    (@Csr.multAT Int _ ⟨fun a b => min (a + b) 10⟩ _ A [1, 1] [0, 0, 0] = .ok [10, 10, -16]) :=
  ⟨⟨2, 3, [0, 3, 6], [0, 1, 2, 2, 1, 0], [8, 8, -8, -8, 8, 8]⟩, by decide, by decide, by decide, by decide⟩

/-- C103: a sparse product with such an addition. -/
example : ∃ A B : Csr Int, A.WF ∧ B.WF ∧ B.rows = A.cols ∧ A.meets B 0 1 = [8, 8, -8] ∧
    (@Csr.multSparse Int _ ⟨fun a b => min (a + b) 10⟩ _ A B = .ok ⟨1, 2, [0, 2], [1, 0], [2, 16]⟩) :=
  ⟨⟨1, 3, [0, 3], [0, 1, 2], [8, 8, -8]⟩, ⟨3, 2, [0, 1, 2, 4], [1, 1, 1, 0], [1, 1, 1, -2]⟩, by decide, by decide, by decide, by decide, by decide⟩

end Linalg
