import Verif.Proof.Block
import Verif.Proof.Coo
import Verif.Proof.View
import Verif.Props.SparseVector
import Verif.Props.SparseTranspose

/-!
# Block matrices and block operators (C39 - C41)
-/

namespace Linalg
open Cpp

variable {α R : Type}

/-! ## C39: BlockMatrix -/

theorem rowCoef_shift [AddMonoid R] (r : List (Int × R)) (o j : Int) :
    rowCoef (r.map (fun e => (o + e.1, e.2))) (o + j) = rowCoef r j := by
  induction r with
  | nil => rfl
  | cons e r ih =>
    rw [List.map_cons, rowCoef_cons, rowCoef_cons, ih]
    simp

theorem rowCoef_flatMap [AddMonoid R] {β : Type} (l : List β) (f : β → List (Int × R)) (j : Int) :
    rowCoef (l.flatMap f) j = (l.map (fun b => rowCoef (f b) j)).sum := by
  induction l with
  | nil => rfl
  | cons b l ih => rw [List.flatMap_cons, rowCoef_append, ih, List.map_cons, List.sum_cons]

theorem BlockMat.WF.getBlock_eq {B : BlockMat α} (h : B.WF) {i j : Int} (i0 : 0 ≤ i) (i1 : i < B.nI) (j0 : 0 ≤ j)
    (j1 : j < B.nJ) : B.getBlock i j = .ok (B.blk i j) := by
  unfold getBlock
  rw [cassert_true (by unfold nI at i1; exact i1), cassert_true (by unfold nJ at j1; exact j1)]
  simp only [ok_bind]
  exact h.at_eq i0 i1 j0 j1

theorem BlockMat.WF.coef_brow [AddCommMonoid R] {B : BlockMat R} (h : B.WF) {I J i j : Int} (I0 : 0 ≤ I)
    (I1 : I < B.nI) (J0 : 0 ≤ J) (J1 : J < B.nJ) (j0 : 0 ≤ j)
    (j1 : j < vecAt B.colOff (J + 1) - vecAt B.colOff J) :
    rowCoef (B.brow I i) (vecAt B.colOff J + j) = (B.blk I J).coef i j := by
  have hc := h.colOff_ok.length_pos
  unfold brow
  rw [rowCoef_flatMap, sum_iota]
  rw [Finset.sum_eq_single J]
  · rw [rowCoef_shift]; rfl
  · intro K hK hne
    have hK := Finset.mem_Ico.mp hK
    have K1 : K < B.nJ := by omega
    apply rowCoef_eq_zero
    intro e he heq
    obtain ⟨e', he', rfl⟩ := List.mem_map.mp he
    have hok := Csr.mem_row_ok (h.blk_wf I K) he'
    simp only at heq
    rcases h.block_size I K I0 I1 hK.1 K1 with hx | hx
    · rw [hx] at hok
      have : (Csr.empty : Csr R).cols = 0 := rfl
      omega
    · apply hne
      unfold nJ at K1 J1
      exact h.colOff_ok.unique (p := vecAt B.colOff J + j) hK.1 K1 J0 J1 (by omega) (by omega)
  · intro hJ
    exact absurd (Finset.mem_Ico.mpr ⟨J0, by unfold nJ at J1 ⊢; omega⟩) hJ

/-- **C39.**  `Combine` of a consistent block matrix is a well-formed matrix of the full size whose entry at
`(row_off[I] + i, col_off[J] + j)` is the entry `(i, j)` of block `(I, J)`, zero for an unset block. -/
theorem C39_combine [AddCommMonoid R] (B : BlockMat R) (h : B.WF) :
    ∃ C, B.combine = .ok C ∧ C.WF ∧ C.rows = B.rows ∧ C.cols = B.cols ∧
      ∀ I J i j, 0 ≤ I → I < B.nI → 0 ≤ J → J < B.nJ → 0 ≤ i → i < vecAt B.rowOff (I + 1) - vecAt B.rowOff I →
        0 ≤ j → j < vecAt B.colOff (J + 1) - vecAt B.colOff J →
        ∃ M, B.getBlock I J = .ok M ∧ C.coef (vecAt B.rowOff I + i) (vecAt B.colOff J + j) = M.coef i j := by
  have hr := h.rowOff_ok.size_nonneg
  refine ⟨_, h.combine_eq, Csr.wf_ofRows h.colOff_ok.size_nonneg h.rowsL_ok, ?_, rfl, ?_⟩
  · simp [Csr.ofRows, BlockMat.length_rowsL]; omega
  · intro I J i j I0 I1 J0 J1 i0 i1 j0 j1
    refine ⟨B.blk I J, h.getBlock_eq I0 I1 J0 J1, ?_⟩
    have hI1 := I1
    unfold BlockMat.nI at hI1
    have a := h.rowOff_ok.nonneg I0 (by omega)
    have b := h.rowOff_ok.le_last (show 0 ≤ I + 1 by omega) (by omega)
    have hk : (vecAt B.rowOff I + i).toNat < B.rowsL.length := by rw [BlockMat.length_rowsL]; omega
    have e1 := coef_ofRows B.cols B.rowsL (vecAt B.rowOff I + i).toNat hk (vecAt B.colOff J + j)
    rw [show (((vecAt B.rowOff I + i).toNat : Nat) : Int) = vecAt B.rowOff I + i by omega] at e1
    rw [e1]
    have e2 := h.rowsL_getD I0 I1 i0 i1
    rw [List.getD_eq_getElem?_getD, List.getElem?_eq_getElem hk] at e2
    simp only [Option.getD_some] at e2
    rw [e2, h.coef_brow I0 I1 J0 J1 j0 j1]

/-- A loop over the entries of a row of the combined matrix. -/
theorem combined_row (n : Int) (rs : List (List (Int × α))) {σ : Type} {k : Int} (k0 : 0 ≤ k) (k1 : k < rs.length) (s : σ)
    (f : Int → α → σ → Res σ) :
    (Csr.ofRows n rs).forRow k s (fun j s => do
      let c ← rd (Csr.ofRows n rs).indices j
      let d ← rd (Csr.ofRows n rs).data j
      f c d s) = (rs.getD k.toNat []).foldlM (fun s e => f e.1 e.2 s) s := by
  obtain ⟨m, rfl⟩ := Int.eq_ofNat_of_zero_le k0
  have hm : m < rs.length := by omega
  rw [Csr.forRow_ofRows n rs m hm s _ (fun e s => f e.1 e.2 s)]
  · rw [Int.toNat_natCast, List.getD_eq_getElem?_getD, List.getElem?_eq_getElem hm]; rfl
  · intro p hp s
    rw [rd_indices_ofRows n rs m p hm hp, ok_bind, rd_data_ofRows n rs m p hm hp, ok_bind]

/-- A loop over the entries of a row of the combined matrix. -/
theorem combined_row' (n : Int) (rs : List (List (Int × α))) {σ : Type} {k : Int} (k0 : 0 ≤ k) (k1 : k < rs.length) (s : σ)
    (f : Int → α → σ → Res σ) :
    (Csr.ofRows n rs).forRow k s (fun j s => do
      let d ← rd (Csr.ofRows n rs).data j
      let c ← rd (Csr.ofRows n rs).indices j
      f c d s) = (rs.getD k.toNat []).foldlM (fun s e => f e.1 e.2 s) s := by
  obtain ⟨m, rfl⟩ := Int.eq_ofNat_of_zero_le k0
  have hm : m < rs.length := by omega
  rw [Csr.forRow_ofRows n rs m hm s _ (fun e s => f e.1 e.2 s)]
  · rw [Int.toNat_natCast, List.getD_eq_getElem?_getD, List.getElem?_eq_getElem hm]; rfl
  · intro p hp s
    rw [rd_data_ofRows n rs m p hm hp, ok_bind, rd_indices_ofRows n rs m p hm hp, ok_bind]

/-- **C39.**  `Mult` and `MultAT` act as the combined matrix, errors included, for all vectors. -/
theorem C39_mult [NonUnitalNonAssocSemiring R] (B : BlockMat R) (h : B.WF) :
    ∃ C, B.combine = .ok C ∧ (∀ x y, B.mult x y = C.mult x y) ∧ (∀ x y, B.multAT x y = C.multAT x y) := by
  have hr := h.rowOff_ok.size_nonneg
  have hC : (Csr.ofRows B.cols B.rowsL).rows = B.rows := by simp [Csr.ofRows, BlockMat.length_rowsL]; omega
  have hCc : (Csr.ofRows B.cols B.rowsL).cols = B.cols := rfl
  refine ⟨_, h.combine_eq, ?_, ?_⟩
  · intro x y
    by_cases hx : (x.length : Int) = B.cols
    · by_cases hy : (y.length : Int) = B.rows
      · rw [C01_mult_output_irrelevant _ (Csr.wf_ofRows h.colOff_ok.size_nonneg h.rowsL_ok) x y
          (List.replicate y.length 0) hx (by rw [hC]; exact hy) (by rw [hC]; simpa using hy)]
        unfold BlockMat.mult Csr.mult
        rw [cassert_true hx, cassert_true hy, hC, hCc, cassert_true hx, cassert_true (by simpa using hy)]
        simp only [ok_bind]
        refine (h.loops_eq _ (fun _ _ => (0 : R)) (fun _ col d val => do
          let x ← vrd x col
          .ok (val + d * x)) (fun row output val => vwr output row val)).trans ?_
        apply forUp_congr
        intro k s k0 k1
        have := combined_row' B.cols B.rowsL k0 (by rw [BlockMat.length_rowsL]; omega) (0 : R) (fun col d val => do
          let x ← vrd x col
          .ok (val + d * x))
        rw [← this]
      · rw [C01_mult_rejects _ x y (Or.inr (by rw [hC]; exact hy))]
        unfold BlockMat.mult
        rw [cassert_true hx, cassert_false hy]; rfl
    · rw [C01_mult_rejects _ x y (Or.inl hx)]
      unfold BlockMat.mult
      rw [cassert_false hx]; rfl
  · intro x y
    by_cases hx : (x.length : Int) = B.rows
    · by_cases hy : (y.length : Int) = B.cols
      · unfold BlockMat.multAT Csr.multAT
        rw [cassert_true hx, cassert_true hy, hC, hCc, cassert_true hx, cassert_true hy]
        simp only [ok_bind]
        refine Eq.trans ?_ ((h.loops_eq (List.replicate y.length (0 : R)) (fun _ output => output) (fun row col d output => do
          let x ← vrd x row
          let old ← vrd output col
          vwr output col (old + d * x)) (fun _ _ o => .ok o)).trans ?_)
        · congr 1
          funext i row l s
          exact (bind_pure _).symm
        · apply forUp_congr
          intro k s k0 k1
          have := combined_row B.cols B.rowsL k0 (by rw [BlockMat.length_rowsL]; omega) s (fun col d output => do
            let x ← vrd x k
            let old ← vrd output col
            vwr output col (old + d * x))
          refine (bind_pure _).trans ?_
          rw [← this]
      · rw [C02_multAT_rejects _ x y (Or.inr hy)]
        unfold BlockMat.multAT
        rw [cassert_true hx, cassert_false hy]; rfl
    · rw [C02_multAT_rejects _ x y (Or.inl (by rw [hC]; exact hx))]
      unfold BlockMat.multAT
      rw [cassert_false hx]; rfl

/-- **C39.**  In terms of the blocks: element `row_off[I] + i` of the product is the sum over the blocks `J` and the
columns `j` of `Block(I, J)(i, j) * x[col_off[J] + j]`. -/
theorem C39_mult_blocks [NonUnitalNonAssocSemiring R] (B : BlockMat R) (h : B.WF) (x y : List R)
    (hx : (x.length : Int) = B.cols) (hy : (y.length : Int) = B.rows) :
    ∃ y', B.mult x y = .ok y' ∧ (y'.length : Int) = B.rows ∧
      ∀ I i, 0 ≤ I → I < B.nI → 0 ≤ i → i < vecAt B.rowOff (I + 1) - vecAt B.rowOff I →
        rd y' (vecAt B.rowOff I + i) = .ok (∑ J ∈ Finset.Ico 0 B.nJ,
          ∑ j ∈ Finset.Ico 0 (vecAt B.colOff (J + 1) - vecAt B.colOff J),
            (B.blk I J).coef i j * vecAt x (vecAt B.colOff J + j)) := by
  obtain ⟨C, hC, hm, -⟩ := C39_mult B h
  obtain ⟨C', hC', hw, hr, hc, hco⟩ := C39_combine B h
  obtain rfl : C = C' := Except.ok.inj (hC.symm.trans hC')
  obtain ⟨y', h1, h2, h3⟩ := C01_mult C hw x y (by omega) (by omega)
  refine ⟨y', by rw [hm, h1], by omega, ?_⟩
  intro I i I0 I1 i0 i1
  have hI1 := I1
  unfold BlockMat.nI at hI1
  have a := h.rowOff_ok.nonneg I0 (by omega)
  have b := h.rowOff_ok.le_last (show 0 ≤ I + 1 by omega) (by omega)
  rw [h3 _ (by omega) (by omega)]
  congr 1
  unfold Csr.mulVec
  rw [hc, ← h.colOff_ok.at_last]
  have hcl := h.colOff_ok.length_pos
  have key : ∀ K : Nat, (K : Int) ≤ B.nJ →
      ∑ j ∈ Finset.Ico 0 (vecAt B.colOff K), C.coef (vecAt B.rowOff I + i) j * vecAt x j
        = ∑ J ∈ Finset.Ico (0 : Int) K, ∑ j ∈ Finset.Ico 0 (vecAt B.colOff (J + 1) - vecAt B.colOff J),
            (B.blk I J).coef i j * vecAt x (vecAt B.colOff J + j) := by
    intro K
    induction K with
    | zero => intro _; simp [h.colOff_ok.at_zero]
    | succ K ih =>
      intro hK
      have hK' := hK
      unfold BlockMat.nJ at hK'
      push_cast at hK hK' ⊢
      rw [sum_Ico_succ _ (by omega), ← ih (by omega)]
      have h0 := h.colOff_ok.nonneg (show (0 : Int) ≤ K by omega) (by omega)
      have h1 := h.colOff_ok.le (show (0 : Int) ≤ K by omega) (show (K : Int) ≤ K + 1 by omega) (by omega)
      have e := sum_Ico_add (fun j => C.coef (vecAt B.rowOff I + i) j * vecAt x j) h0
        (show 0 ≤ vecAt B.colOff (K + 1) - vecAt B.colOff K by omega)
      rw [show vecAt B.colOff K + (vecAt B.colOff (K + 1) - vecAt B.colOff K) = vecAt B.colOff (K + 1) by omega] at e
      rw [e]
      congr 1
      apply Finset.sum_congr rfl
      intro j hj
      have hj := Finset.mem_Ico.mp hj
      obtain ⟨M, hM, hMc⟩ := hco I K i j I0 I1 (by omega) (by omega) i0 i1 hj.1 hj.2
      rw [h.getBlock_eq I0 I1 (by omega) (by omega)] at hM
      obtain rfl := Except.ok.inj hM
      rw [hMc]
  have := key B.nJ.toNat (by unfold BlockMat.nJ; omega)
  rw [show ((B.nJ.toNat : Nat) : Int) = B.nJ by unfold BlockMat.nJ; omega] at this
  exact this

/-! ### Building a block matrix -/

/-- The array of blocks given by a function. -/
def blocksFn (a b : Nat) (F : Int → Int → α) : List (List α) := vecFn a (fun i => vecFn b (fun j => F i j))

theorem blocksFn_congr {a b : Nat} {F G : Int → Int → α}
    (h : ∀ i j : Int, 0 ≤ i → i < a → 0 ≤ j → j < b → F i j = G i j) : blocksFn a b F = blocksFn a b G :=
  vecFn_congr (fun i i0 i1 => vecFn_congr (fun j j0 j1 => h i j i0 i1 j0 j1))

/-- The block matrix with the given offsets and blocks. -/
def BlockMat.mk' (rows cols : Int) (ro co : List Int) (F : Int → Int → Csr α) : BlockMat α :=
  ⟨rows, cols, ro, co, blocksFn (ro.length - 1) (co.length - 1) F⟩

theorem getD_vecFn {n : Nat} {f : Int → α} {d : α} {i : Int} (h0 : 0 ≤ i) (h1 : i < n) :
    (vecFn n f).getD i.toNat d = f i := by
  have h := rd_vecFn (f := f) h0 h1
  rw [rd_int h0 (by simpa using h1)] at h
  rw [List.getD_eq_getElem?_getD, List.getElem?_eq_getElem (by simp; omega)]
  exact Except.ok.inj h

theorem BlockMat.blk_mk' {rows cols : Int} {ro co : List Int} {F : Int → Int → Csr α} {i j : Int} (i0 : 0 ≤ i)
    (i1 : i < (ro.length : Int) - 1) (j0 : 0 ≤ j) (j1 : j < (co.length : Int) - 1) :
    (mk' rows cols ro co F).blk i j = F i j := by
  unfold blk mk' blocksFn
  rw [if_pos ⟨i0, j0⟩]
  simp only
  rw [getD_vecFn i0 (by omega), getD_vecFn j0 (by omega)]

theorem BlockMat.wf_mk' {rows cols : Int} {ro co : List Int} {F : Int → Int → Csr α} (hr : Offsets ro rows)
    (hc : Offsets co cols)
    (hF : ∀ i j, 0 ≤ i → i < (ro.length : Int) - 1 → 0 ≤ j → j < (co.length : Int) - 1 → (F i j).WF ∧
      (F i j = Csr.empty ∨ ((F i j).rows = vecAt ro (i + 1) - vecAt ro i ∧ (F i j).cols = vecAt co (j + 1) - vecAt co j))) :
    (mk' rows cols ro co F).WF where
  rowOff_ok := hr
  colOff_ok := hc
  blocks_len := by simp [mk', blocksFn]
  block_row_len := by
    intro r hr
    rw [mk', blocksFn, vecFn_iota] at hr
    obtain ⟨i, -, rfl⟩ := List.mem_map.mp hr
    simp [mk']
  block_wf := by
    intro r hr M hM
    rw [mk', blocksFn, vecFn_iota] at hr
    obtain ⟨i, hi, rfl⟩ := List.mem_map.mp hr
    rw [vecFn_iota] at hM
    obtain ⟨j, hj, rfl⟩ := List.mem_map.mp hM
    have hi := mem_iota.mp hi
    have hj := mem_iota.mp hj
    exact (hF i j hi.1 (by omega) hj.1 (by omega)).1
  block_size := by
    intro i j i0 i1 j0 j1
    rw [blk_mk' (ro := ro) (co := co) i0 i1 j0 j1]
    exact (hF i j i0 i1 j0 j1).2

theorem BlockMat.Layout.eq_mk' {B : BlockMat α} (h : B.Layout) : B = mk' B.rows B.cols B.rowOff B.colOff B.blk := by
  have h1 := h.blocks_len
  have h2 := h.rowOff_ok.length_pos
  have h3 := h.colOff_ok.length_pos
  have : B.blocks = blocksFn (B.rowOff.length - 1) (B.colOff.length - 1) B.blk := by
    apply List.ext_getElem
    · simp [blocksFn, h1]
    · intro i i1 i2
      apply List.ext_getElem
      · rw [h.block_row_len _ (List.getElem_mem i1)]
        simp [blocksFn, vecFn]
      · intro j j1 j2
        have hl := h.block_row_len _ (List.getElem_mem i1)
        simp only [blocksFn, vecFn, List.getElem_map, List.getElem_range, blk]
        rw [if_pos ⟨by omega, by omega⟩]
        simp only [Int.toNat_natCast, List.getD_eq_getElem?_getD]
        rw [List.getElem?_eq_getElem i1]
        simp only [Option.getD_some]
        rw [List.getElem?_eq_getElem j1]
        rfl
  cases B
  simp only [mk'] at this ⊢
  congr 1

theorem BlockMat.WF.eq_mk' {B : BlockMat α} (h : B.WF) : B = mk' B.rows B.cols B.rowOff B.colOff B.blk := h.layout.eq_mk'

theorem BlockMat.setBlock_mk' {rows cols : Int} {ro co : List Int} {F : Int → Int → Csr α} {i j : Int} {M : Csr α}
    (i0 : 0 ≤ i) (i1 : i < (ro.length : Int) - 1) (j0 : 0 ≤ j) (j1 : j < (co.length : Int) - 1)
    (hr : M.rows = vecAt ro (i + 1) - vecAt ro i) (hc : M.cols = vecAt co (j + 1) - vecAt co j) :
    (mk' rows cols ro co F).setBlock i j M
      = .ok (mk' rows cols ro co (fun a b => if a = i ∧ b = j then M else F a b)) := by
  unfold setBlock
  rw [cassert_true (show i < ((mk' rows cols ro co F).rowOff.length : Int) - 1 from i1),
    cassert_true (show j < ((mk' rows cols ro co F).colOff.length : Int) - 1 from j1)]
  simp only [ok_bind, mk']
  rw [rd_vecAt ro (by omega) (by omega), ok_bind, rd_vecAt ro i0 (by omega), ok_bind, cassert_true hr, ok_bind,
    rd_vecAt co (by omega) (by omega), ok_bind, rd_vecAt co j0 (by omega), ok_bind, cassert_true hc, ok_bind]
  unfold blocksFn
  rw [rd_vecFn i0 (by omega), ok_bind, wr_vecFn _ j0 (by omega), ok_bind, wr_vecFn _ i0 (by omega), ok_bind]
  congr 2
  apply vecFn_congr
  intro a _ _
  by_cases ha : a = i
  · subst ha; simp
  · simp [ha]

theorem BlockMat.new_eq {rows cols : Int} {ro co : List Int} (hr : Offsets ro rows) (hc : Offsets co cols) :
    (BlockMat.new ro co : Res (BlockMat α)) = .ok (mk' rows cols ro co (fun _ _ => Csr.empty)) := by
  unfold BlockMat.new lastOf
  rw [hr.last, hc.last]
  simp only [ok_bind]
  rw [cassert_true hr.size_nonneg, cassert_true hc.size_nonneg]
  simp only [ok_bind, mk', blocksFn]
  rw [replicate_vecFn, replicate_vecFn]

/-- **C39.**  The constructor and `SetBlock` maintain consistency; `GetBlock` returns what was set and the other blocks
are unchanged. -/
theorem C39_new (ro co : List Int) (rows cols : Int) (hr : Offsets ro rows) (hc : Offsets co cols) :
    ∃ B : BlockMat α, BlockMat.new ro co = .ok B ∧ B.WF ∧ B.rows = rows ∧ B.cols = cols ∧ B.rowOff = ro ∧ B.colOff = co ∧
      ∀ i j, 0 ≤ i → i < B.nI → 0 ≤ j → j < B.nJ → B.getBlock i j = .ok Csr.empty := by
  have he : (Csr.empty : Csr α).WF :=
    ⟨le_rfl, le_rfl, by simp [Csr.empty], rfl, by simp [Csr.empty], rfl, rfl, by simp [Csr.empty]⟩
  have hw : (BlockMat.mk' rows cols ro co (fun _ _ => (Csr.empty : Csr α))).WF :=
    BlockMat.wf_mk' hr hc (fun i j _ _ _ _ => ⟨he, Or.inl rfl⟩)
  refine ⟨_, BlockMat.new_eq hr hc, hw, rfl, rfl, rfl, rfl, ?_⟩
  intro i j i0 i1 j0 j1
  rw [hw.getBlock_eq i0 i1 j0 j1, BlockMat.blk_mk' (ro := ro) (co := co) i0 i1 j0 j1]

/-- **C39.**  `SetBlock` with a matrix of the size of the block. -/
theorem C39_setBlock (B : BlockMat α) (h : B.WF) (i j : Int) (M : Csr α) (hM : M.WF) (i0 : 0 ≤ i) (i1 : i < B.nI)
    (j0 : 0 ≤ j) (j1 : j < B.nJ) (hr : M.rows = vecAt B.rowOff (i + 1) - vecAt B.rowOff i)
    (hc : M.cols = vecAt B.colOff (j + 1) - vecAt B.colOff j) :
    ∃ B', B.setBlock i j M = .ok B' ∧ B'.WF ∧ B'.rows = B.rows ∧ B'.cols = B.cols ∧ B'.rowOff = B.rowOff ∧
      B'.colOff = B.colOff ∧ B'.getBlock i j = .ok M ∧
      ∀ a b, 0 ≤ a → a < B.nI → 0 ≤ b → b < B.nJ → ¬ (a = i ∧ b = j) → B'.getBlock a b = B.getBlock a b := by
  have hw : (BlockMat.mk' B.rows B.cols B.rowOff B.colOff (fun a b => if a = i ∧ b = j then M else B.blk a b)).WF := by
    apply BlockMat.wf_mk' h.rowOff_ok h.colOff_ok
    intro a b a0 a1 b0 b1
    by_cases hab : a = i ∧ b = j
    · rw [if_pos hab, hab.1, hab.2]; exact ⟨hM, Or.inr ⟨hr, hc⟩⟩
    · rw [if_neg hab]; exact ⟨h.blk_wf a b, h.block_size a b a0 a1 b0 b1⟩
  refine ⟨_, ?_, hw, rfl, rfl, rfl, rfl, ?_, ?_⟩
  · conv_lhs => rw [h.eq_mk']
    exact BlockMat.setBlock_mk' i0 i1 j0 j1 hr hc
  · rw [hw.getBlock_eq i0 i1 j0 j1, BlockMat.blk_mk' i0 i1 j0 j1, if_pos ⟨rfl, rfl⟩]
  · intro a b a0 a1 b0 b1 hab
    rw [hw.getBlock_eq a0 a1 b0 b1, BlockMat.blk_mk' a0 a1 b0 b1, if_neg hab, h.getBlock_eq a0 a1 b0 b1]

/-- **C39.**  `SetBlock` rejects a matrix of another size and a block outside the layout on the upper side. -/
theorem C39_setBlock_rejects (B : BlockMat α) (i j : Int) (M : Csr α) (i0 : 0 ≤ i) (j0 : 0 ≤ j)
    (hbad : ¬ (i < B.nI ∧ j < B.nJ ∧ M.rows = vecAt B.rowOff (i + 1) - vecAt B.rowOff i ∧
      M.cols = vecAt B.colOff (j + 1) - vecAt B.colOff j)) : B.setBlock i j M = .error .assertFail := by
  unfold BlockMat.setBlock
  by_cases i1 : i < B.nI
  · have i1' := i1
    unfold BlockMat.nI at i1'
    rw [cassert_true i1', ok_bind]
    by_cases j1 : j < B.nJ
    · have j1' := j1
      unfold BlockMat.nJ at j1'
      rw [cassert_true j1', ok_bind, rd_vecAt _ (by omega) (by omega), ok_bind, rd_vecAt _ i0 (by omega), ok_bind]
      by_cases hr : M.rows = vecAt B.rowOff (i + 1) - vecAt B.rowOff i
      · rw [cassert_true hr, ok_bind, rd_vecAt _ (by omega) (by omega), ok_bind, rd_vecAt _ j0 (by omega), ok_bind,
          cassert_false (fun hc => hbad ⟨i1, j1, hr, hc⟩)]
        rfl
      · rw [cassert_false hr]; rfl
    · rw [cassert_false (by unfold BlockMat.nJ at j1; exact j1)]; rfl
  · rw [cassert_false (by unfold BlockMat.nI at i1; exact i1)]; rfl

/-- C39: a layout with an unset block and a rectangular one. -/
example : ∃ (B : BlockMat Int) (C : Csr Int), B.WF ∧ B.combine = .ok C ∧ C.data = [5, 6, 7] ∧ C.indices = [1, 2, 0] ∧
    B.mult [1, 2, 3] [0, 0] = .ok [28, 7] := by
  have hr : Offsets [0, 1, 2] 2 := by decide
  have hc : Offsets [0, 1, 3] 3 := by decide
  refine ⟨BlockMat.mk' 2 3 [0, 1, 2] [0, 1, 3] (fun i j =>
    if i = 0 ∧ j = 1 then ⟨1, 2, [0, 2], [0, 1], [5, 6]⟩ else if i = 1 ∧ j = 0 then ⟨1, 1, [0, 1], [0], [7]⟩ else Csr.empty),
    ⟨2, 3, [0, 2, 3], [1, 2, 0], [5, 6, 7]⟩, ?_, by decide, rfl, rfl, by decide⟩
  apply BlockMat.wf_mk' hr hc
  intro i j i0 i1 j0 j1
  have hi : i = 0 ∨ i = 1 := by simp at i1; omega
  have hj : j = 0 ∨ j = 1 := by simp at j1; omega
  rcases hi with rfl | rfl <;> rcases hj with rfl | rfl <;> decide

/-! ## C40: BlockMatrix::Transpose -/

/-- Block `(I, J)` has the size that `Transpose` needs: that of block `(J, I)` of the result. -/
def BlockMat.Flips (B : BlockMat α) (i j : Int) : Prop :=
  (B.blk i j).rows = vecAt B.colOff (j + 1) - vecAt B.colOff j ∧ (B.blk i j).cols = vecAt B.rowOff (i + 1) - vecAt B.rowOff i

theorem BlockMat.WF.transpose_eq {B : BlockMat α} (h : B.WF)
    (hf : ∀ i j, 0 ≤ i → i < B.nI → 0 ≤ j → j < B.nJ → B.Flips i j) :
    B.transpose = .ok (mk' B.cols B.rows B.colOff B.rowOff (fun q p => B.blk p q)) := by
  have h2 := h.rowOff_ok.length_pos
  have h3 := h.colOff_ok.length_pos
  unfold transpose
  rw [new_eq h.colOff_ok h.rowOff_ok, ok_bind]
  have e0 : (mk' B.cols B.rows B.colOff B.rowOff (fun _ _ => (Csr.empty : Csr α)))
      = mk' B.cols B.rows B.colOff B.rowOff (fun q p => if p < 0 then B.blk p q else Csr.empty) := by
    have : (blocksFn (B.colOff.length - 1) (B.rowOff.length - 1) (fun _ _ => (Csr.empty : Csr α)))
        = blocksFn (B.colOff.length - 1) (B.rowOff.length - 1) (fun q p => if p < 0 then B.blk p q else Csr.empty) :=
      blocksFn_congr (fun q p _ _ p0 _ => by rw [if_neg (by omega)])
    unfold mk'
    rw [this]
  have e1 : (mk' B.cols B.rows B.colOff B.rowOff (fun q p => B.blk p q))
      = mk' B.cols B.rows B.colOff B.rowOff (fun q p => if p < (B.rowOff.length : Int) - 1 then B.blk p q else Csr.empty) := by
    unfold mk'
    congr 1
    exact blocksFn_congr (fun q p _ _ _ p1 => by rw [if_pos (by omega)])
  rw [e0, e1]
  refine forUp_seq (by omega) (fun i => mk' B.cols B.rows B.colOff B.rowOff
    (fun q p => if p < i then B.blk p q else Csr.empty)) ?_
  intro i i0 i1
  have e2 : (mk' B.cols B.rows B.colOff B.rowOff (fun q p => if p < i then B.blk p q else (Csr.empty : Csr α)))
      = mk' B.cols B.rows B.colOff B.rowOff
        (fun q p => if p < i ∨ (p = i ∧ q < 0) then B.blk p q else Csr.empty) := by
    unfold mk'
    congr 1
    exact blocksFn_congr (fun q p q0 _ _ _ => by
      by_cases hp : p < i
      · rw [if_pos hp, if_pos (Or.inl hp)]
      · rw [if_neg hp, if_neg (by omega)])
  have e3 : (mk' B.cols B.rows B.colOff B.rowOff (fun q p => if p < i + 1 then B.blk p q else (Csr.empty : Csr α)))
      = mk' B.cols B.rows B.colOff B.rowOff
        (fun q p => if p < i ∨ (p = i ∧ q < (B.colOff.length : Int) - 1) then B.blk p q else Csr.empty) := by
    unfold mk'
    congr 1
    exact blocksFn_congr (fun q p _ q1 _ _ => by
      by_cases hp : p < i + 1
      · rw [if_pos hp, if_pos (by omega)]
      · rw [if_neg hp, if_neg (by omega)])
  rw [e2, e3]
  refine forUp_seq (by omega) (fun j => mk' B.cols B.rows B.colOff B.rowOff
    (fun q p => if p < i ∨ (p = i ∧ q < j) then B.blk p q else Csr.empty)) ?_
  intro j j0 j1
  rw [h.getBlock_eq i0 i1 j0 j1, ok_bind, setBlock_mk' j0 j1 i0 i1 (hf i j i0 i1 j0 j1).1 (hf i j i0 i1 j0 j1).2]
  congr 2
  funext q p
  by_cases hq : q = j ∧ p = i
  · rw [if_pos hq, if_pos (by omega), hq.1, hq.2]
  · rw [if_neg hq]
    by_cases hp : p < i ∨ (p = i ∧ q < j)
    · rw [if_pos hp, if_pos (by omega)]
    · rw [if_neg hp, if_neg (by omega)]

/-- **C40.**  What `Transpose` does when it returns: block `(J, I)` of the result is block `(I, J)`, itself not
transposed. -/
theorem C40_transpose_moves (B : BlockMat α) (h : B.WF)
    (hf : ∀ i j, 0 ≤ i → i < B.nI → 0 ≤ j → j < B.nJ → B.Flips i j) :
    ∃ T, B.transpose = .ok T ∧ T.WF ∧ T.rows = B.cols ∧ T.cols = B.rows ∧ T.rowOff = B.colOff ∧ T.colOff = B.rowOff ∧
      ∀ i j, 0 ≤ i → i < B.nI → 0 ≤ j → j < B.nJ → T.getBlock j i = B.getBlock i j := by
  have hw : (BlockMat.mk' B.cols B.rows B.colOff B.rowOff (fun q p => B.blk p q)).WF :=
    BlockMat.wf_mk' h.colOff_ok h.rowOff_ok
      (fun q p q0 q1 p0 p1 => ⟨h.blk_wf p q, Or.inr (hf p q p0 p1 q0 q1)⟩)
  refine ⟨_, h.transpose_eq hf, hw, rfl, rfl, rfl, rfl, ?_⟩
  intro i j i0 i1 j0 j1
  rw [hw.getBlock_eq j0 j1 i0 i1, h.getBlock_eq i0 i1 j0 j1,
    BlockMat.blk_mk' (ro := B.colOff) (co := B.rowOff) j0 j1 i0 i1]

/-- **C40.**  `Transpose` fails with an assertion as soon as one block, unset ones included, has not the size of its
mirror position: the claim fails for every block matrix with an unset block of non-zero size. -/
theorem C40_transpose_rejects (B : BlockMat α) (h : B.WF)
    (hf : ∃ i j, 0 ≤ i ∧ i < B.nI ∧ 0 ≤ j ∧ j < B.nJ ∧ ¬ B.Flips i j) : B.transpose = .error .assertFail := by
  have h2 := h.rowOff_ok.length_pos
  have h3 := h.colOff_ok.length_pos
  unfold BlockMat.transpose
  rw [BlockMat.new_eq h.colOff_ok h.rowOff_ok, ok_bind]
  obtain ⟨a, b, a0, a1, b0, b1, hab⟩ := hf
  apply forUp_fails (fun _ T => ∃ F, T = BlockMat.mk' B.cols B.rows B.colOff B.rowOff F)
    (fun i => ∀ j, 0 ≤ j → j < B.nJ → B.Flips i j) .assertFail ⟨_, rfl⟩
  · rintro i T i0 i1 ⟨F, rfl⟩ hg
    obtain ⟨T', e1, e2⟩ := forUp_inv (a := 0) (b := (B.colOff.length : Int) - 1) (by omega)
      (f := fun j T => do
        let blk ← B.getBlock i j
        T.setBlock j i blk)
      (fun _ T => ∃ F, T = BlockMat.mk' B.cols B.rows B.colOff B.rowOff F)
      (s := BlockMat.mk' B.cols B.rows B.colOff B.rowOff F) ⟨F, rfl⟩ (by
        rintro j T j0 j1 ⟨G, rfl⟩
        rw [h.getBlock_eq i0 i1 j0 j1, ok_bind,
          BlockMat.setBlock_mk' j0 j1 i0 i1 (hg j j0 j1).1 (hg j j0 j1).2]
        exact ⟨_, rfl, _, rfl⟩)
    exact ⟨T', e1, e2⟩
  · rintro i T i0 i1 ⟨F, rfl⟩ hg
    simp only [not_forall] at hg
    obtain ⟨j', j0', j1', hj'⟩ := hg
    apply forUp_fails (fun _ T => ∃ F, T = BlockMat.mk' B.cols B.rows B.colOff B.rowOff F)
      (fun j => B.Flips i j) .assertFail ⟨F, rfl⟩
    · rintro j T j0 j1 ⟨G, rfl⟩ hg
      rw [h.getBlock_eq i0 i1 j0 j1, ok_bind, BlockMat.setBlock_mk' j0 j1 i0 i1 hg.1 hg.2]
      exact ⟨_, rfl, _, rfl⟩
    · rintro j T j0 j1 ⟨G, rfl⟩ hg
      rw [h.getBlock_eq i0 i1 j0 j1, ok_bind]
      apply C39_setBlock_rejects _ _ _ _ j0 i0
      rintro ⟨-, -, c1, c2⟩
      exact hg ⟨c1, c2⟩
    · exact ⟨j', j0', j1', hj'⟩
  · exact ⟨a, a0, a1, fun hg => hab (hg b b0 b1)⟩

/-- **C40.**  The claim fails also when `Transpose` returns: a single block that is not symmetric. -/
theorem C40_transpose_false : ∃ (B T : BlockMat Int) (C D E : Csr Int), B.WF ∧ B.transpose = .ok T ∧
    T.combine = .ok C ∧ B.combine = .ok D ∧ D.transpose = .ok E ∧ C.coef 0 1 ≠ E.coef 0 1 := by
  have hr : Offsets [0, 2] 2 := by decide
  refine ⟨BlockMat.mk' 2 2 [0, 2] [0, 2] (fun _ _ => ⟨2, 2, [0, 1, 1], [1], [5]⟩),
    BlockMat.mk' 2 2 [0, 2] [0, 2] (fun _ _ => ⟨2, 2, [0, 1, 1], [1], [5]⟩), ⟨2, 2, [0, 1, 1], [1], [5]⟩,
    ⟨2, 2, [0, 1, 1], [1], [5]⟩, ⟨2, 2, [0, 0, 1], [0], [5]⟩, ?_, by decide, by decide, by decide, by decide, by decide⟩
  apply BlockMat.wf_mk' hr hr
  intro i j i0 i1 j0 j1
  obtain rfl : i = 0 := by simp at i1; omega
  obtain rfl : j = 0 := by simp at j1; omega
  decide

/-- **C40** (partial: only for block matrices whose blocks are all set, square as their mirror position requires, and
symmetric).  `Transpose().Combine()` represents the transpose of `Combine()`. -/
theorem C40_transpose_partial [AddCommMonoid R] (B : BlockMat R) (h : B.WF)
    (hf : ∀ i j, 0 ≤ i → i < B.nI → 0 ≤ j → j < B.nJ → B.Flips i j)
    (hs : ∀ I J i j, 0 ≤ I → I < B.nI → 0 ≤ J → J < B.nJ → (B.blk I J).coef i j = (B.blk I J).coef j i) :
    ∃ T C D, B.transpose = .ok T ∧ T.combine = .ok C ∧ B.combine = .ok D ∧ C.WF ∧ C.rows = D.cols ∧ C.cols = D.rows ∧
      ∀ p q, 0 ≤ p → p < D.rows → 0 ≤ q → q < D.cols → C.coef q p = D.coef p q := by
  obtain ⟨T, t1, t2, t3, t4, t5, t6, t7⟩ := C40_transpose_moves B h hf
  obtain ⟨C, c1, c2, c3, c4, c5⟩ := C39_combine T t2
  obtain ⟨D, d1, d2, d3, d4, d5⟩ := C39_combine B h
  refine ⟨T, C, D, t1, c1, d1, c2, by omega, by omega, ?_⟩
  intro p q p0 p1 q0 q1
  obtain ⟨I, I0, I1, a1, a2⟩ := h.rowOff_ok.locate p0 (by omega)
  obtain ⟨J, J0, J1, b1, b2⟩ := h.colOff_ok.locate q0 (by omega)
  obtain ⟨M, m1, m2⟩ := d5 I J (p - vecAt B.rowOff I) (q - vecAt B.colOff J) I0 I1 J0 J1 (by omega) (by omega)
    (by omega) (by omega)
  obtain ⟨N, n1, n2⟩ := c5 J I (q - vecAt B.colOff J) (p - vecAt B.rowOff I) J0
    (by unfold BlockMat.nI; rw [t5]; exact J1) I0 (by unfold BlockMat.nJ; rw [t6]; exact I1) (by omega)
    (by rw [t5]; omega) (by omega) (by rw [t6]; omega)
  rw [t5, t6, show vecAt B.colOff J + (q - vecAt B.colOff J) = q by omega,
    show vecAt B.rowOff I + (p - vecAt B.rowOff I) = p by omega] at n2
  rw [show vecAt B.colOff J + (q - vecAt B.colOff J) = q by omega,
    show vecAt B.rowOff I + (p - vecAt B.rowOff I) = p by omega] at m2
  rw [t7 I J I0 I1 J0 J1, m1] at n1
  obtain rfl := Except.ok.inj n1
  rw [n2, m2]
  rw [h.getBlock_eq I0 I1 J0 J1] at m1
  obtain rfl := Except.ok.inj m1
  exact hs I J _ _ I0 I1 J0 J1

/-! ## C41: BlockOperator -/

theorem addInto_vecFn [Add R] {N : Nat} {f g : Int → R} {v : View} {t : List R} (h0 : 0 ≤ v.off) (hs : 0 ≤ v.size)
    (h1 : v.off + v.size ≤ N) (ht : VecIs t v.size g) :
    BlockOp.addInto v (vecFn N f) t
      = .ok (vecFn N (fun p => if v.off ≤ p ∧ p < v.off + v.size then f p + g (p - v.off) else f p)) := by
  have hl := ht.length_eq
  unfold BlockOp.addInto
  rw [cassert_true hl.symm, ok_bind]
  refine (mapLoop v.off hs f (fun i => f (v.off + i) + g i) _ ?_).trans ?_
  · intro i h i0 i1 hh
    rw [View.get_vecFn h0 h1 i0 i1, ok_bind, vrd_eq_rd (by omega), ht.get_eq i i0 i1, ok_bind,
      View.put_vecFn _ h0 h1 i0 i1, hh (v.off + i) (by omega)]
  · congr 1
    apply vecFn_congr
    intro p _ _
    by_cases hp : v.off ≤ p ∧ p < v.off + v.size
    · rw [if_pos hp, if_pos hp, show v.off + (p - v.off) = p by omega]
    · rw [if_neg hp, if_neg hp]

theorem setSize_length (x : List R) {n : Int} (hn : 0 ≤ n) (v : R) :
    ∃ y, Vec.setSize x n v = .ok y ∧ (y.length : Int) = n := by
  unfold Vec.setSize
  by_cases he : n ≠ x.length
  · rw [if_pos he, cassert_true hn, ok_bind]
    exact ⟨_, rfl, by simp [resize]; omega⟩
  · rw [if_neg he]
    exact ⟨x, rfl, by omega⟩

theorem BlockOp.WF.rd_op {B : BlockOp α} (h : B.WF) {i j : Int} (i0 : 0 ≤ i) (i1 : i < B.nI) (j0 : 0 ≤ j)
    (j1 : j < B.nJ) : ∃ row, rd B.blocks i = .ok row ∧ rd row j = .ok (B.opAt i j) := by
  have h1 := h.blocks_len
  have h2 := h.rowOff_ok.length_pos
  have h3 := h.colOff_ok.length_pos
  unfold nI at i1
  unfold nJ at j1
  have hi : i.toNat < B.blocks.length := by omega
  have hr := h.block_row_len _ (List.getElem_mem hi)
  refine ⟨_, rd_int i0 (by omega), ?_⟩
  rw [rd_int j0 (by omega)]
  unfold opAt
  rw [if_pos ⟨i0, j0⟩]
  simp only [List.getD_eq_getElem?_getD]
  rw [List.getElem?_eq_getElem hi]
  simp only [Option.getD_some]
  rw [List.getElem?_eq_getElem (show j.toNat < B.blocks[i.toNat].length by omega)]
  rfl

theorem getBlock_offsets {off : List Int} {n : Int} (h : Offsets off n) {i : Int} (i0 : 0 ≤ i)
    (i1 : i < (off.length : Int) - 1) (m : Int) :
    View.getBlock ⟨0, m⟩ off i = .ok ⟨vecAt off i, vecAt off (i + 1) - vecAt off i⟩ := by
  have hle := h.le i0 (show i ≤ i + 1 by omega) (by omega)
  unfold View.getBlock
  rw [cassert_true i1, ok_bind, rd_vecAt off i0 (by omega), ok_bind, rd_vecAt off (by omega) (by omega), ok_bind,
    cassert_true (by omega), ok_bind]
  simp

/-- What block `(i, j)` adds to element `l` of block row `i`. -/
def BlockOp.term [Zero R] (B : BlockOp R) (F : Int → Int → List R → Int → R) (x : List R) (i j l : Int) : R :=
  match B.opAt i j with
  | none => 0
  | some _ => F i j (subList x (vecAt B.colOff j) (vecAt B.colOff (j + 1))) l

theorem BlockOp.WF.multStep_eq [AddCommMonoid R] {B : BlockOp R} (h : B.WF) {F : Int → Int → List R → Int → R}
    (hF : ∀ i j op, 0 ≤ i → i < B.nI → 0 ≤ j → j < B.nJ → B.opAt i j = some op → op.Computes (F i j))
    {x : List R} (hx : (x.length : Int) = B.cols) {i j : Int} (i0 : 0 ≤ i) (i1 : i < B.nI) (j0 : 0 ≤ j) (j1 : j < B.nJ)
    {N : Nat} (hN : (N : Int) = B.rows) (f : Int → R) (tmp : List R)
    (ht : (tmp.length : Int) = vecAt B.rowOff (i + 1) - vecAt B.rowOff i) :
    ∃ tmp', B.multStep x i ⟨vecAt B.rowOff i, vecAt B.rowOff (i + 1) - vecAt B.rowOff i⟩ j (vecFn N f, tmp)
      = .ok (vecFn N (fun p => if vecAt B.rowOff i ≤ p ∧ p < vecAt B.rowOff (i + 1)
          then f p + B.term F x i j (p - vecAt B.rowOff i) else f p), tmp') ∧
      (tmp'.length : Int) = vecAt B.rowOff (i + 1) - vecAt B.rowOff i := by
  obtain ⟨row, r1, r2⟩ := h.rd_op i0 i1 j0 j1
  have hi1 := i1
  unfold nI at hi1
  have hj1 := j1
  unfold nJ at hj1
  have a0 := h.rowOff_ok.nonneg i0 (by omega)
  have a1 := h.rowOff_ok.le i0 (show i ≤ i + 1 by omega) (by omega)
  have a2 := h.rowOff_ok.le_last (show 0 ≤ i + 1 by omega) (by omega)
  have b0 := h.colOff_ok.nonneg j0 (by omega)
  have b1 := h.colOff_ok.le j0 (show j ≤ j + 1 by omega) (by omega)
  have b2 := h.colOff_ok.le_last (show 0 ≤ j + 1 by omega) (by omega)
  unfold multStep
  rw [r1, ok_bind, r2, ok_bind]
  unfold term
  cases hop : B.opAt i j with
  | none =>
    refine ⟨tmp, ?_, ht⟩
    simp
  | some op =>
    obtain ⟨s1, s2⟩ := h.op_size i j op i0 i1 j0 j1 hop
    simp only
    rw [getBlock_offsets h.colOff_ok j0 hj1, ok_bind]
    unfold viewElems Csr.slice
    simp only
    rw [if_pos (by omega), ok_bind]
    unfold Op.multResize
    obtain ⟨t1, e1, e2⟩ := setSize_length tmp (show 0 ≤ op.rows by omega) (0 : R)
    rw [e1, ok_bind]
    have hsub : (x.drop (vecAt B.colOff j).toNat).take
        (vecAt B.colOff j + (vecAt B.colOff (j + 1) - vecAt B.colOff j) - vecAt B.colOff j).toNat
        = subList x (vecAt B.colOff j) (vecAt B.colOff (j + 1)) := by
      unfold subList
      congr 2
      omega
    rw [hsub]
    obtain ⟨z, z1, z2⟩ := hF i j op i0 i1 j0 j1 hop (subList x (vecAt B.colOff j) (vecAt B.colOff (j + 1))) t1
      (by unfold subList; simp; omega) e2
    rw [z1, ok_bind, addInto_vecFn (g := F i j (subList x (vecAt B.colOff j) (vecAt B.colOff (j + 1)))) a0
      (by simp only; omega) (by simp only; omega) (by rw [← s1]; exact z2), ok_bind]
    refine ⟨z, ?_, by have := z2.length_eq; omega⟩
    congr 2
    apply vecFn_congr
    intro p _ _
    simp only [show vecAt B.rowOff i + (vecAt B.rowOff (i + 1) - vecAt B.rowOff i) = vecAt B.rowOff (i + 1) by omega]

/-- **C41.**  `Mult` returns normally; block `I` of the result is the sum over the set blocks of the operator applied
to the matching part of the input, zero if there is none.  The result depends neither on the work vectors nor on the old
output; the operator stays consistent and keeps its blocks, so this holds after every history of calls. -/
theorem C41_mult [AddCommMonoid R] (B : BlockOp R) (h : B.WF) (F : Int → Int → List R → Int → R)
    (hF : ∀ i j op, 0 ≤ i → i < B.nI → 0 ≤ j → j < B.nJ → B.opAt i j = some op → op.Computes (F i j))
    (x out : List R) (hx : (x.length : Int) = B.cols) (ho : (out.length : Int) = B.rows) :
    ∃ B' y, B.mult x out = .ok (B', y) ∧ B'.WF ∧ B'.rows = B.rows ∧ B'.cols = B.cols ∧ B'.rowOff = B.rowOff ∧
      B'.colOff = B.colOff ∧ B'.blocks = B.blocks ∧ (y.length : Int) = B.rows ∧
      ∀ I i, 0 ≤ I → I < B.nI → 0 ≤ i → i < vecAt B.rowOff (I + 1) - vecAt B.rowOff I →
        rd y (vecAt B.rowOff I + i) = .ok (∑ J ∈ Finset.Ico 0 B.nJ, match B.opAt I J with
          | none => 0
          | some _ => F I J (subList x (vecAt B.colOff J) (vecAt B.colOff (J + 1))) i) := by
  have hl2 := h.rowOff_ok.length_pos
  have hl3 := h.colOff_ok.length_pos
  have hrows := h.rowOff_ok.size_nonneg
  have hyl := h.y_len
  let G : Int → R := fun p => ∑ J ∈ Finset.Ico 0 B.nJ,
    B.term F x (BlockMat.blockOf B.rowOff p) J (p - vecAt B.rowOff (BlockMat.blockOf B.rowOff p))
  have hG : ∀ I p, 0 ≤ I → I < B.nI → vecAt B.rowOff I ≤ p → p < vecAt B.rowOff (I + 1) →
      G p = ∑ J ∈ Finset.Ico 0 B.nJ, B.term F x I J (p - vecAt B.rowOff I) := by
    intro I p I0 I1 p0 p1
    have := BlockMat.blockOf_eq h.rowOff_ok I0 (by unfold BlockOp.nI at I1; exact I1)
      (show 0 ≤ p - vecAt B.rowOff I by omega) (by omega)
    rw [show vecAt B.rowOff I + (p - vecAt B.rowOff I) = p by omega] at this
    simp only [G, this]
  have main := forUp_inv (a := 0) (b := (B.rowOff.length : Int) - 1) (by omega)
    (f := fun i (st : List R × List R) => do
      let rowY ← View.getBlock ⟨0, st.1.length⟩ B.rowOff i
      let tmp ← Vec.setSize st.2 rowY.size 0
      forUp 0 ((B.colOff.length : Int) - 1) (st.1, tmp) (B.multStep x i rowY))
    (fun I st => st.1 = vecFn B.y.length (fun p => if p < vecAt B.rowOff I then G p else 0))
    (s := (List.replicate B.y.length (0 : R), B.tmp)) (by
      simp only
      rw [replicate_vecFn]
      apply vecFn_congr
      intro p p0 _
      rw [h.rowOff_ok.at_zero, if_neg (by omega)]) (by
      rintro I ⟨y, tmp⟩ I0 I1 hI
      simp only at hI
      subst hI
      have a0 := h.rowOff_ok.nonneg I0 (by omega)
      have a1 := h.rowOff_ok.le I0 (show I ≤ I + 1 by omega) (by omega)
      have a2 := h.rowOff_ok.le_last (show 0 ≤ I + 1 by omega) (by omega)
      simp only
      rw [getBlock_offsets h.rowOff_ok I0 I1, ok_bind]
      simp only
      obtain ⟨t1, e1, e2⟩ := setSize_length tmp
        (show 0 ≤ vecAt B.rowOff (I + 1) - vecAt B.rowOff I by omega) (0 : R)
      rw [e1, ok_bind]
      obtain ⟨st, f1, f2, f3⟩ := forUp_inv (a := 0) (b := (B.colOff.length : Int) - 1) (by omega)
        (f := B.multStep x I ⟨vecAt B.rowOff I, vecAt B.rowOff (I + 1) - vecAt B.rowOff I⟩)
        (fun J st => st.1 = vecFn B.y.length (fun p => if p < vecAt B.rowOff I then G p
            else if p < vecAt B.rowOff (I + 1) then ∑ K ∈ Finset.Ico 0 J, B.term F x I K (p - vecAt B.rowOff I) else 0) ∧
          (st.2.length : Int) = vecAt B.rowOff (I + 1) - vecAt B.rowOff I)
        (s := (vecFn B.y.length (fun p => if p < vecAt B.rowOff I then G p else 0), t1)) (by
          refine ⟨?_, e2⟩
          simp only
          apply vecFn_congr
          intro p p0 _
          by_cases hp : p < vecAt B.rowOff I
          · rw [if_pos hp, if_pos hp]
          · rw [if_neg hp, if_neg hp]; simp) (by
          rintro J ⟨y, tmp⟩ J0 J1 ⟨hy, ht⟩
          simp only at hy ht
          subst hy
          obtain ⟨tmp', g1, g2⟩ := h.multStep_eq hF hx I0 I1 J0 J1 h.y_len
            (fun p => if p < vecAt B.rowOff I then G p
            else if p < vecAt B.rowOff (I + 1) then ∑ K ∈ Finset.Ico 0 J, B.term F x I K (p - vecAt B.rowOff I) else 0) tmp ht
          refine ⟨_, g1, ?_, g2⟩
          simp only
          apply vecFn_congr
          intro p p0 _
          by_cases hp : p < vecAt B.rowOff I
          · rw [if_neg (by omega), if_pos hp, if_pos hp]
          · by_cases hq : p < vecAt B.rowOff (I + 1)
            · rw [if_pos (by omega), if_neg hp, if_pos hq, if_neg hp, if_pos hq, sum_Ico_succ _ J0]
            · rw [if_neg (by omega), if_neg hp, if_neg hq, if_neg hp, if_neg hq])
      refine ⟨st, f1, ?_⟩
      rw [f2]
      apply vecFn_congr
      intro p p0 _
      by_cases hp : p < vecAt B.rowOff I
      · rw [if_pos hp, if_pos (by omega)]
      · rw [if_neg hp]
        by_cases hq : p < vecAt B.rowOff (I + 1)
        · rw [if_pos hq, if_pos hq, hG I p I0 I1 (by omega) hq]; rfl
        · rw [if_neg hq, if_neg hq])
  obtain ⟨st, m1, m2⟩ := main
  have hlen : st.1.length = B.y.length := by rw [m2]; simp
  refine ⟨{ B with x := x, y := st.1, tmp := st.2 }, st.1, ?_, ?_, rfl, rfl, rfl, rfl, rfl, by omega, ?_⟩
  · unfold BlockOp.mult
    rw [cassert_true hx, cassert_true ho]
    simp only [ok_bind]
    rw [m1, ok_bind, cassert_true (by omega), ok_bind]
  · exact ⟨h.rowOff_ok, h.colOff_ok, h.blocks_len, h.block_row_len, h.op_size, hx, by simp only; omega⟩
  · intro I i I0 I1 i0 i1
    have hi1 := I1
    unfold BlockOp.nI at hi1
    have a0 := h.rowOff_ok.nonneg I0 (by omega)
    have a2 := h.rowOff_ok.le_last (show 0 ≤ I + 1 by omega) (by omega)
    rw [m2, rd_vecFn (by omega) (by omega), h.rowOff_ok.at_last, if_pos (by omega), hG I _ I0 I1 (by omega) (by omega),
      show vecAt B.rowOff I + i - vecAt B.rowOff I = i by omega]
    rfl

/-- The block operator of the adjoints. -/
def BlockOp.flip {α : Type} (B : BlockOp α) : BlockOp α :=
  ⟨B.cols, B.rows, B.colOff, B.rowOff,
    blocksFn (B.colOff.length - 1) (B.rowOff.length - 1)
      (fun j i => (B.opAt i j).map (fun op => ⟨op.cols, op.rows, op.multAT, op.mult⟩)),
    B.y, B.x, B.tmp⟩

theorem BlockOp.opAt_flip {α : Type} (B : BlockOp α) {i j : Int} (i0 : 0 ≤ i) (i1 : i < B.nI) (j0 : 0 ≤ j)
    (j1 : j < B.nJ) : B.flip.opAt j i = (B.opAt i j).map (fun op => ⟨op.cols, op.rows, op.multAT, op.mult⟩) := by
  unfold nI at i1
  unfold nJ at j1
  conv_lhs => unfold opAt flip blocksFn vecFn
  rw [if_pos ⟨j0, i0⟩]
  have hj : j.toNat < B.colOff.length - 1 := by omega
  have hi : i.toNat < B.rowOff.length - 1 := by omega
  simp only [List.getD_eq_getElem?_getD, List.getElem?_map, List.getElem?_range hj, List.getElem?_range hi,
    Option.map_some, Option.getD_some]
  rw [Int.toNat_of_nonneg i0, Int.toNat_of_nonneg j0]

theorem BlockOp.WF.flip {α : Type} {B : BlockOp α} (h : B.WF) : B.flip.WF where
  rowOff_ok := h.colOff_ok
  colOff_ok := h.rowOff_ok
  blocks_len := by simp [BlockOp.flip, blocksFn]
  block_row_len := by
    intro r hr
    rw [BlockOp.flip, blocksFn, vecFn_iota] at hr
    obtain ⟨j, _, rfl⟩ := List.mem_map.mp hr
    simp [BlockOp.flip]
  op_size := by
    intro j i op j0 j1 i0 i1 he
    have hj : j < B.nJ := j1
    have hi : i < B.nI := i1
    rw [B.opAt_flip i0 hi j0 hj] at he
    cases ho : B.opAt i j with
    | none => rw [ho] at he; simp at he
    | some o =>
      rw [ho] at he
      simp only [Option.map_some, Option.some.injEq] at he
      subst he
      have := h.op_size i j o i0 hi j0 hj ho
      exact ⟨this.2, this.1⟩
  x_len := h.y_len
  y_len := h.x_len

theorem BlockOp.WF.multATStep_eq [AddCommMonoid R] {B : BlockOp R} (h : B.WF) (y : List R) {i j : Int} (i0 : 0 ≤ i)
    (i1 : i < B.nI) (j0 : 0 ≤ j) (j1 : j < B.nJ) (v : View) (st : List R × List R) :
    B.multATStep y j v i st = B.flip.multStep y j v i st := by
  obtain ⟨row, r1, r2⟩ := h.rd_op i0 i1 j0 j1
  obtain ⟨row', s1, s2⟩ := h.flip.rd_op (i := j) (j := i) j0 j1 i0 i1
  unfold multATStep multStep
  rw [r1, ok_bind, r2, ok_bind, s1, ok_bind, s2, ok_bind, B.opAt_flip i0 i1 j0 j1]
  cases B.opAt i j with
  | none => rfl
  | some op => rfl

theorem BlockOp.WF.multAT_eq [AddCommMonoid R] {B : BlockOp R} (h : B.WF) {x out : List R} {B' : BlockOp R}
    {y : List R} (he : B.flip.mult x out = .ok (B', y)) :
    B.multAT x out = .ok ({ B with y := B'.x, x := B'.y, tmp := B'.tmp }, y) := by
  unfold mult at he
  unfold multAT
  change (cassert ((x.length : Int) = B.rows) >>= fun _ => _) = _ at he
  obtain ⟨u, e1, he⟩ := bind_eq_ok.mp he
  rw [e1, ok_bind]
  change (cassert ((out.length : Int) = B.cols) >>= fun _ => _) = _ at he
  obtain ⟨u, e1, he⟩ := bind_eq_ok.mp he
  rw [e1, ok_bind]
  obtain ⟨st, e1, he⟩ := bind_eq_ok.mp he
  have e2 : forUp 0 ((B.colOff.length : Int) - 1) (List.replicate B.x.length (0 : R), B.tmp) (fun j st => do
    let rowX ← View.getBlock ⟨0, st.1.length⟩ B.colOff j
    let tmp ← Vec.setSize st.2 rowX.size 0
    forUp 0 ((B.rowOff.length : Int) - 1) (st.1, tmp) (B.multATStep x j rowX)) = .ok st := by
    rw [← e1]
    refine forUp_congr _ (fun j st j0 j1 => ?_)
    refine congrArg (fun z => _ >>= z) (funext fun v => ?_)
    refine congrArg (fun z => _ >>= z) (funext fun t => ?_)
    exact forUp_congr _ (fun i st i0 i1 => h.multATStep_eq x i0 i1 j0 j1 v st)
  refine (congrArg (fun z => z >>= _) e2).trans ?_
  rw [ok_bind]
  obtain ⟨u, e1, he⟩ := bind_eq_ok.mp he
  rw [e1, ok_bind]
  simp only [Except.ok.injEq, Prod.mk.injEq] at he
  obtain ⟨rfl, rfl⟩ := he
  rfl

/-- **C41.**  `MultAT`: block `J` of the result is the sum over the set blocks of the adjoint applied to the matching
part of the input, zero if there is none; independent of the work vectors and of the old output. -/
theorem C41_multAT [AddCommMonoid R] (B : BlockOp R) (h : B.WF) (F : Int → Int → List R → Int → R)
    (hF : ∀ i j op, 0 ≤ i → i < B.nI → 0 ≤ j → j < B.nJ → B.opAt i j = some op → op.ComputesAT (F i j))
    (x out : List R) (hx : (x.length : Int) = B.rows) (ho : (out.length : Int) = B.cols) :
    ∃ B' y, B.multAT x out = .ok (B', y) ∧ B'.WF ∧ B'.rows = B.rows ∧ B'.cols = B.cols ∧ B'.rowOff = B.rowOff ∧
      B'.colOff = B.colOff ∧ B'.blocks = B.blocks ∧ (y.length : Int) = B.cols ∧
      ∀ J j, 0 ≤ J → J < B.nJ → 0 ≤ j → j < vecAt B.colOff (J + 1) - vecAt B.colOff J →
        rd y (vecAt B.colOff J + j) = .ok (∑ I ∈ Finset.Ico 0 B.nI, match B.opAt I J with
          | none => 0
          | some _ => F I J (subList x (vecAt B.rowOff I) (vecAt B.rowOff (I + 1))) j) := by
  obtain ⟨B', y, e, w, -, -, -, -, -, hl, hy⟩ := C41_mult B.flip h.flip (fun j i => F i j) (by
    intro j i op j0 j1 i0 i1 he
    have hj : j < B.nJ := j1
    have hi : i < B.nI := i1
    rw [B.opAt_flip i0 hi j0 hj] at he
    cases ho : B.opAt i j with
    | none => rw [ho] at he; simp at he
    | some o =>
      rw [ho] at he
      simp only [Option.map_some, Option.some.injEq] at he
      subst he
      exact hF i j o i0 hi j0 hj ho) x out hx ho
  have hw : (B'.x.length : Int) = B.rows ∧ (B'.y.length : Int) = B.cols := by
    have e' := e
    unfold BlockOp.mult at e'
    obtain ⟨u, -, e'⟩ := bind_eq_ok.mp e'
    obtain ⟨u, -, e'⟩ := bind_eq_ok.mp e'
    obtain ⟨st, -, e'⟩ := bind_eq_ok.mp e'
    obtain ⟨u, -, e'⟩ := bind_eq_ok.mp e'
    simp only [Except.ok.injEq, Prod.mk.injEq] at e'
    obtain ⟨rfl, rfl⟩ := e'
    exact ⟨hx, hl⟩
  refine ⟨_, y, h.multAT_eq e, ?_, rfl, rfl, rfl, rfl, rfl, hl, ?_⟩
  · exact ⟨h.rowOff_ok, h.colOff_ok, h.blocks_len, h.block_row_len, h.op_size, hw.2, hw.1⟩
  · intro J j J0 J1 j0 j1
    rw [show rd y (vecAt B.colOff J + j) = _ from hy J j J0 J1 j0 j1]
    congr 1
    apply Finset.sum_congr rfl
    intro I hI
    rw [Finset.mem_Ico] at hI
    rw [B.opAt_flip hI.1 hI.2 J0 J1]
    cases B.opAt I J with
    | none => rfl
    | some op => rfl

/-- **C41.**  A fresh block operator on valid offsets is consistent and has no blocks. -/
theorem C41_new [AddCommMonoid R] (ro co : List Int) {m n : Int} (hr : Offsets ro m) (hc : Offsets co n) :
    ∃ B : BlockOp R, BlockOp.new ro co = .ok B ∧ B.WF ∧ B.rows = m ∧ B.cols = n ∧ B.rowOff = ro ∧ B.colOff = co ∧
      ∀ i j, B.opAt i j = none := by
  have r1 := hr.length_pos
  have c1 := hc.length_pos
  have r2 := hr.size_nonneg
  have c2 := hc.size_nonneg
  have ops : ∀ i j, (⟨m, n, ro, co, List.replicate (ro.length - 1) (List.replicate (co.length - 1) none),
      List.replicate n.toNat (0 : R), List.replicate m.toNat (0 : R), []⟩ : BlockOp R).opAt i j = none := by
    intro i j
    unfold BlockOp.opAt
    split
    · simp only [List.getD_eq_getElem?_getD, List.getElem?_replicate]
      split
      · simp only [Option.getD_some, List.getElem?_replicate]
        split <;> rfl
      · rfl
    · rfl
  refine ⟨⟨m, n, ro, co, List.replicate (ro.length - 1) (List.replicate (co.length - 1) none),
      List.replicate n.toNat (0 : R), List.replicate m.toNat (0 : R), []⟩, ?_, ?_, rfl, rfl, rfl, rfl, ops⟩
  · have l1 : lastOf ro = .ok m := by
      unfold lastOf
      rw [hr.last]
    have l2 : lastOf co = .ok n := by
      unfold lastOf
      rw [hc.last]
    unfold BlockOp.new
    rw [l1, ok_bind, l2, ok_bind, cassert_true r2, ok_bind, cassert_true c2, ok_bind, mkVec_int c2, ok_bind,
      mkVec_int r2, ok_bind]
  · refine ⟨hr, hc, by simp, ?_, ?_, by simp; omega, by simp; omega⟩
    · intro r hr
      rw [List.mem_replicate] at hr
      rw [hr.2]
      simp
    · intro i j op _ _ _ _ he
      rw [ops i j] at he
      exact absurd he (by simp)

/-- **C41.**  `SetBlock` with an operator of the block's size changes that block alone and keeps the operator
consistent. -/
theorem C41_setBlock {α : Type} (B : BlockOp α) (h : B.WF) (op : Op α) {i j : Int} (i0 : 0 ≤ i) (i1 : i < B.nI)
    (j0 : 0 ≤ j) (j1 : j < B.nJ) (hr : op.rows = vecAt B.rowOff (i + 1) - vecAt B.rowOff i)
    (hc : op.cols = vecAt B.colOff (j + 1) - vecAt B.colOff j) :
    ∃ B', B.setBlock i j op = .ok B' ∧ B'.WF ∧ B'.rows = B.rows ∧ B'.cols = B.cols ∧ B'.rowOff = B.rowOff ∧
      B'.colOff = B.colOff ∧ B'.opAt i j = some op ∧
      ∀ p q, ¬ (p = i ∧ q = j) → B'.opAt p q = B.opAt p q := by
  have h1 := h.blocks_len
  have h2 := h.rowOff_ok.length_pos
  have h3 := h.colOff_ok.length_pos
  have hi1 := i1
  have hj1 := j1
  unfold BlockOp.nI at hi1
  unfold BlockOp.nJ at hj1
  have hi : i.toNat < B.blocks.length := by omega
  have hrl := h.block_row_len _ (List.getElem_mem hi)
  let B' : BlockOp α := { B with blocks := B.blocks.set i.toNat (B.blocks[i.toNat].set j.toNat (some op)) }
  have hop : ∀ p q, B'.opAt p q = if p = i ∧ q = j then some op else B.opAt p q := by
    intro p q
    simp only [B', BlockOp.opAt]
    by_cases hpq : 0 ≤ p ∧ 0 ≤ q
    · rw [if_pos hpq, if_pos hpq]
      by_cases hp : p = i
      · subst hp
        simp only [List.getD_eq_getElem?_getD]
        rw [List.getElem?_set_self hi, List.getElem?_eq_getElem hi]
        simp only [Option.getD_some, true_and]
        by_cases hq : q = j
        · subst hq
          rw [List.getElem?_set_self (by omega), if_pos rfl]
          rfl
        · rw [List.getElem?_set_ne (by omega), if_neg hq]
      · simp only [List.getD_eq_getElem?_getD]
        rw [List.getElem?_set_ne (by omega), if_neg (by tauto)]
    · rw [if_neg hpq, if_neg hpq, if_neg (by omega)]
  refine ⟨B', ?_, ?_, rfl, rfl, rfl, rfl, by rw [hop, if_pos ⟨rfl, rfl⟩], fun p q hpq => by rw [hop, if_neg hpq]⟩
  · unfold BlockOp.setBlock
    rw [cassert_true hi1, ok_bind, cassert_true hj1, ok_bind, rd_vecAt _ (by omega) (by omega), ok_bind,
      rd_vecAt _ (by omega) (by omega), ok_bind, cassert_true hr, ok_bind, rd_vecAt _ (by omega) (by omega), ok_bind,
      rd_vecAt _ (by omega) (by omega), ok_bind, cassert_true hc, ok_bind, rd_int i0 (by omega), ok_bind,
      wr_int j0 (by omega), ok_bind, wr_int i0 (by omega), ok_bind]
  · refine ⟨h.rowOff_ok, h.colOff_ok, by simp only [B', List.length_set]; exact h1, ?_, ?_, h.x_len, h.y_len⟩
    · intro r hrm
      rcases List.mem_or_eq_of_mem_set hrm with hm | rfl
      · exact h.block_row_len r hm
      · simp only [List.length_set]; exact hrl
    · intro p q o p0 p1 q0 q1 he
      rw [hop] at he
      by_cases hpq : p = i ∧ q = j
      · rw [if_pos hpq] at he
        obtain ⟨rfl, rfl⟩ := hpq
        simp only [Option.some.injEq] at he
        subst he
        exact ⟨hr, hc⟩
      · rw [if_neg hpq] at he
        exact h.op_size p q o p0 p1 q0 q1 he

/-- **C41.**  `SetBlock` refuses an operator of another size. -/
theorem C41_setBlock_rejects {α : Type} (B : BlockOp α) (op : Op α) {i j : Int} (i0 : 0 ≤ i) (i1 : i < B.nI)
    (j0 : 0 ≤ j) (j1 : j < B.nJ) (hbad : op.rows ≠ vecAt B.rowOff (i + 1) - vecAt B.rowOff i ∨
      op.cols ≠ vecAt B.colOff (j + 1) - vecAt B.colOff j) : B.setBlock i j op = .error .assertFail := by
  unfold BlockOp.nI at i1
  unfold BlockOp.nJ at j1
  unfold BlockOp.setBlock
  rw [cassert_true i1, ok_bind, cassert_true j1, ok_bind, rd_vecAt _ (by omega) (by omega), ok_bind,
      rd_vecAt _ (by omega) (by omega), ok_bind]
  by_cases hr : op.rows = vecAt B.rowOff (i + 1) - vecAt B.rowOff i
  · rw [cassert_true hr, ok_bind, rd_vecAt _ (by omega) (by omega), ok_bind,
      rd_vecAt _ (by omega) (by omega), ok_bind, cassert_false (by tauto)]
    rfl
  · rw [cassert_false hr]
    rfl

/-- **C41.**  Two applications in a row: the second result is what a fresh run gives; the work vectors left behind do not
matter. -/
theorem C41_repeat [AddCommMonoid R] (B : BlockOp R) (h : B.WF) (F : Int → Int → List R → Int → R)
    (hF : ∀ i j op, 0 ≤ i → i < B.nI → 0 ≤ j → j < B.nJ → B.opAt i j = some op → op.Computes (F i j))
    (x out x' out' : List R) (hx : (x.length : Int) = B.cols) (ho : (out.length : Int) = B.rows)
    (hx' : (x'.length : Int) = B.cols) (ho' : (out'.length : Int) = B.rows) :
    ∃ B₁ y₁ B₂ y₂ B₃, B.mult x out = .ok (B₁, y₁) ∧ B₁.mult x' out' = .ok (B₂, y₂) ∧ B.mult x' out' = .ok (B₃, y₂) := by
  obtain ⟨B₁, y₁, e1, w1, d1, d2, d3, d4, d5, l1, -⟩ := C41_mult B h F hF x out hx ho
  have hop : ∀ i j, B₁.opAt i j = B.opAt i j := fun i j => by unfold BlockOp.opAt; rw [d5]
  have nI : B₁.nI = B.nI := by unfold BlockOp.nI; rw [d3]
  have nJ : B₁.nJ = B.nJ := by unfold BlockOp.nJ; rw [d4]
  obtain ⟨B₂, y₂, e2, -, -, -, -, -, -, l2, g2⟩ := C41_mult B₁ w1 F (by
    intro i j op i0 i1 j0 j1 he
    exact hF i j op i0 (nI ▸ i1) j0 (nJ ▸ j1) (hop i j ▸ he)) x' out' (by omega) (by omega)
  obtain ⟨B₃, y₃, e3, -, -, -, -, -, -, l3, g3⟩ := C41_mult B h F hF x' out' hx' ho'
  have : y₂ = y₃ := by
    apply List.ext_getElem (by omega)
    intro k k1 k2
    have hl := h.rowOff_ok.length_pos
    obtain ⟨I, I0, I1, p0, p1⟩ := h.rowOff_ok.locate (p := (k : Int)) (by omega) (by omega)
    have a := g2 I ((k : Int) - vecAt B.rowOff I) I0 (by unfold BlockOp.nI; rw [d3]; exact I1) (by omega) (by rw [d3]; omega)
    have b := g3 I ((k : Int) - vecAt B.rowOff I) I0 I1 (by omega) (by omega)
    rw [d3, d4, nJ] at a
    simp only [hop] at a
    rw [show vecAt B.rowOff I + ((k : Int) - vecAt B.rowOff I) = (k : Int) by omega] at a b
    rw [rd_nat k1] at a
    rw [rd_nat k2] at b
    rw [← b] at a
    simpa using a
  exact ⟨B₁, y₁, B₂, y₂, B₃, e1, e2, this ▸ e3⟩

/-- A sparse matrix as an operator. -/
def Csr.toOp {α : Type} [Zero α] [Add α] [Mul α] (A : Csr α) : Op α := ⟨A.rows, A.cols, A.mult, A.multAT⟩

/-- **C41.**  A well-formed sparse matrix is such an operator, in both directions. -/
theorem C41_sparse_block [NonUnitalNonAssocSemiring R] (A : Csr R) (hA : A.WF) :
    A.toOp.Computes (fun x i => A.mulVec x i) ∧ A.toOp.ComputesAT (fun x j => A.tMulVec x j) := by
  constructor
  · intro x y hx hy
    obtain ⟨z, e, l, g⟩ := C01_mult A hA x y hx hy
    exact ⟨z, e, l, g⟩
  · intro x y hx hy
    obtain ⟨z, e, l, g⟩ := C02_multAT A hA x y hx hy
    exact ⟨z, e, l, g⟩

/-- A block operator with sparse blocks meets the hypotheses; a second call is not affected by the first. -/
example : ∃ B₀ B₁ B₂ B₃ B₄ : BlockOp Int, BlockOp.new [0, 1, 3] [0, 2] = .ok B₀ ∧
    B₀.setBlock 1 0 (Csr.toOp ⟨2, 2, [0, 1, 3], [1, 0, 1], [5, 6, 7]⟩) = .ok B₁ ∧
    B₁.mult [9, 9] [1, 1, 1] = .ok (B₂, [0, 45, 117]) ∧ B₂.mult [1, 2] [8, 8, 8] = .ok (B₃, [0, 10, 20]) ∧
    B₃.multAT [1, 2, 3] [0, 0] = .ok (B₄, [18, 31]) :=
  ⟨_, _, _, _, _, rfl, rfl, rfl, rfl, rfl⟩

end Linalg
