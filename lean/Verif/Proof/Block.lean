import Verif.Spec.Block
import Verif.Proof.Sums
import Verif.Proof.Fill
import Verif.Proof.Vec
import Verif.Proof.Dense
import Mathlib.Algebra.BigOperators.Intervals

/-!
# Loops over block matrices
-/

namespace Linalg
open Cpp

variable {α σ R : Type}

theorem forUp_append {a b c : Int} (hab : a ≤ b) (hbc : b ≤ c) (s : σ) (f : Int → σ → Res σ) :
    (forUp a b s f >>= fun s => forUp b c s f) = forUp a c s f := by
  obtain ⟨n, hn⟩ : ∃ n : Nat, b = a + n := ⟨(b - a).toNat, by omega⟩
  induction n generalizing a s with
  | zero =>
    obtain rfl : b = a := by omega
    rw [forUp_nil le_rfl, ok_bind]
  | succ n ih =>
    rw [forUp_cons (show a < b by omega), forUp_cons (show a < c by omega), bind_assoc]
    congr 1
    funext s'
    exact ih (by omega) s' (by omega)

theorem forUp_last {a b : Int} (hab : a ≤ b) (s : σ) (f : Int → σ → Res σ) :
    forUp a (b + 1) s f = (forUp a b s f >>= f b) := by
  rw [← forUp_append hab (show b ≤ b + 1 by omega)]
  congr 1
  funext s'
  rw [forUp_cons (by omega)]
  conv_rhs => rw [← bind_pure (f b s')]
  congr 1
  funext t
  rw [forUp_nil le_rfl]; rfl

/-! ## Offsets -/

theorem Offsets.length_pos {off : List Int} {n : Int} (h : Offsets off n) : 1 ≤ off.length := by
  have := h.first
  cases off with
  | nil => cases this
  | cons a l => simp

theorem Offsets.at_zero {off : List Int} {n : Int} (h : Offsets off n) : vecAt off 0 = 0 := by
  have := h.first
  cases off with
  | nil => cases this
  | cons a l => simpa [vecAt] using this

theorem Offsets.at_last {off : List Int} {n : Int} (h : Offsets off n) : vecAt off ((off.length : Int) - 1) = n := by
  have h1 := h.last
  have h2 := h.length_pos
  rw [List.getLast?_eq_getElem?] at h1
  rw [vecAt_int off (by omega) (by omega)]
  have : ((off.length : Int) - 1).toNat = off.length - 1 := by omega
  simp only [this]
  rw [List.getElem?_eq_getElem (by omega)] at h1
  exact Option.some.inj h1

theorem Offsets.le {off : List Int} {n : Int} (h : Offsets off n) {a b : Int} (h0 : 0 ≤ a) (hab : a ≤ b)
    (hb : b ≤ (off.length : Int) - 1) : vecAt off a ≤ vecAt off b := by
  have h2 := h.length_pos
  rw [vecAt_int off h0 (by omega), vecAt_int off (by omega) (by omega)]
  by_cases he : a = b
  · subst he; exact le_rfl
  · exact List.pairwise_iff_getElem.mp h.mono _ _ _ _ (by omega)

theorem Offsets.nonneg {off : List Int} {n : Int} (h : Offsets off n) {a : Int} (h0 : 0 ≤ a)
    (hb : a ≤ (off.length : Int) - 1) : 0 ≤ vecAt off a := by
  have := h.le le_rfl h0 hb
  rwa [h.at_zero] at this

theorem Offsets.le_last {off : List Int} {n : Int} (h : Offsets off n) {a : Int} (h0 : 0 ≤ a)
    (hb : a ≤ (off.length : Int) - 1) : vecAt off a ≤ n := by
  have := h.le h0 hb le_rfl
  rwa [h.at_last] at this

theorem Offsets.size_nonneg {off : List Int} {n : Int} (h : Offsets off n) : 0 ≤ n := by
  have h2 := h.length_pos
  exact le_trans (h.nonneg le_rfl (by omega)) (h.le_last le_rfl (by omega))

/-- Each position is in exactly one block. -/
theorem Offsets.locate {off : List Int} {n : Int} (h : Offsets off n) {p : Int} (h0 : 0 ≤ p) (h1 : p < n) :
    ∃ i, 0 ≤ i ∧ i < (off.length : Int) - 1 ∧ vecAt off i ≤ p ∧ p < vecAt off (i + 1) := by
  have h2 := h.length_pos
  have key : ∀ k : Nat, (k : Int) ≤ (off.length : Int) - 1 → p < vecAt off k →
      ∃ i, 0 ≤ i ∧ i < (off.length : Int) - 1 ∧ vecAt off i ≤ p ∧ p < vecAt off (i + 1) := by
    intro k
    induction k with
    | zero =>
      intro _ hp
      have := h.at_zero
      simp only [Nat.cast_zero] at hp
      omega
    | succ k ih =>
      intro hk hp
      by_cases hc : p < vecAt off k
      · exact ih (by push_cast at hk; omega) hc
      · exact ⟨k, by omega, by push_cast at hk; omega, by omega, by push_cast at hp; exact hp⟩
  apply key (off.length - 1) (by omega)
  have := h.at_last
  rw [show ((off.length - 1 : Nat) : Int) = (off.length : Int) - 1 by omega, this]
  exact h1

/-- Blocks do not overlap. -/
theorem Offsets.unique {off : List Int} {n : Int} (h : Offsets off n) {i j p : Int} (i0 : 0 ≤ i)
    (i1 : i < (off.length : Int) - 1) (j0 : 0 ≤ j) (j1 : j < (off.length : Int) - 1)
    (hi : vecAt off i ≤ p ∧ p < vecAt off (i + 1)) (hj : vecAt off j ≤ p ∧ p < vecAt off (j + 1)) : i = j := by
  rcases lt_trichotomy i j with hlt | he | hgt
  · have := h.le (show 0 ≤ i + 1 by omega) (show i + 1 ≤ j by omega) (by omega)
    omega
  · exact he
  · have := h.le (show 0 ≤ j + 1 by omega) (show j + 1 ≤ i by omega) (by omega)
    omega

namespace BlockMat

theorem WF.layout {B : BlockMat α} (h : B.WF) : B.Layout :=
  ⟨h.rowOff_ok, h.colOff_ok, h.blocks_len, h.block_row_len, h.block_wf⟩

theorem Layout.at_eq {B : BlockMat α} (h : B.Layout) {i j : Int} (i0 : 0 ≤ i) (i1 : i < B.nI) (j0 : 0 ≤ j) (j1 : j < B.nJ) :
    B.at' i j = .ok (B.blk i j) := by
  have h1 := h.blocks_len
  have h2 := h.rowOff_ok.length_pos
  have h3 := h.colOff_ok.length_pos
  unfold nI at i1
  unfold nJ at j1
  unfold at' blk
  rw [rd_int i0 (by omega), ok_bind, if_pos ⟨i0, j0⟩]
  have hr := h.block_row_len _ (List.getElem_mem (show i.toNat < B.blocks.length by omega))
  rw [rd_int j0 (by omega)]
  simp only [List.getD_eq_getElem?_getD]
  rw [List.getElem?_eq_getElem (show i.toNat < B.blocks.length by omega)]
  simp only [Option.getD_some]
  rw [List.getElem?_eq_getElem (show j.toNat < B.blocks[i.toNat].length by omega)]
  rfl

theorem Layout.blk_wf {B : BlockMat α} (h : B.Layout) (i j : Int) : (B.blk i j).WF := by
  have he : (Csr.empty : Csr α).WF :=
    ⟨le_rfl, le_rfl, by simp [Csr.empty], rfl, by simp [Csr.empty], rfl, rfl, by simp [Csr.empty]⟩
  unfold blk
  split
  · simp only [List.getD_eq_getElem?_getD]
    by_cases hi : i.toNat < B.blocks.length
    · rw [List.getElem?_eq_getElem hi]
      simp only [Option.getD_some]
      by_cases hj : j.toNat < B.blocks[i.toNat].length
      · rw [List.getElem?_eq_getElem hj]
        exact h.block_wf _ (List.getElem_mem hi) _ (List.getElem_mem hj)
      · rw [List.getElem?_eq_none (by omega)]; exact he
    · rw [List.getElem?_eq_none (show B.blocks.length ≤ i.toNat by omega)]
      simpa using he
  · exact he

/-- Local row `l` of block row `i` with shifted columns. -/
def brow (B : BlockMat α) (i l : Int) : List (Int × α) :=
  (iota B.nJ.toNat).flatMap (fun j => ((B.blk i j).row l).map (fun e => (vecAt B.colOff j + e.1, e.2)))

/-- The block row that holds row `p`. -/
noncomputable def blockOf (off : List Int) (p : Int) : Int :=
  open Classical in
  if h : ∃ i, 0 ≤ i ∧ i < (off.length : Int) - 1 ∧ vecAt off i ≤ p ∧ p < vecAt off (i + 1) then h.choose else 0

theorem blockOf_eq {off : List Int} {n : Int} (h : Offsets off n) {i l : Int} (i0 : 0 ≤ i)
    (i1 : i < (off.length : Int) - 1) (l0 : 0 ≤ l) (l1 : l < vecAt off (i + 1) - vecAt off i) :
    blockOf off (vecAt off i + l) = i := by
  have hex : ∃ k, 0 ≤ k ∧ k < (off.length : Int) - 1 ∧ vecAt off k ≤ vecAt off i + l ∧
      vecAt off i + l < vecAt off (k + 1) := ⟨i, i0, i1, by omega, by omega⟩
  unfold blockOf
  rw [dif_pos hex]
  obtain ⟨a, b, c, d⟩ := hex.choose_spec
  exact h.unique a b i0 i1 ⟨c, d⟩ ⟨by omega, by omega⟩

/-- The rows of the combined matrix. -/
noncomputable def rowsL (B : BlockMat α) : List (List (Int × α)) :=
  (List.range B.rows.toNat).map (fun k : Nat =>
    B.brow (blockOf B.rowOff k) (k - vecAt B.rowOff (blockOf B.rowOff k)))

theorem length_rowsL (B : BlockMat α) : B.rowsL.length = B.rows.toNat := by simp [rowsL]

theorem Layout.rowsL_getD {B : BlockMat α} (h : B.Layout) {i l : Int} (i0 : 0 ≤ i) (i1 : i < B.nI) (l0 : 0 ≤ l)
    (l1 : l < vecAt B.rowOff (i + 1) - vecAt B.rowOff i) :
    B.rowsL.getD (vecAt B.rowOff i + l).toNat [] = B.brow i l := by
  unfold nI at i1
  have h1 := h.rowOff_ok.nonneg i0 (by omega)
  have h2 := h.rowOff_ok.le_last (show 0 ≤ i + 1 by omega) (by omega)
  rw [List.getD_eq_getElem?_getD, List.getElem?_eq_getElem (by rw [length_rowsL]; omega)]
  simp only [rowsL, List.getElem_map, List.getElem_range, Option.getD_some]
  rw [show (((vecAt B.rowOff i + l).toNat : Nat) : Int) = vecAt B.rowOff i + l by omega,
    blockOf_eq h.rowOff_ok i0 i1 l0 l1]
  congr 1
  omega

/-- The two outer loops visit the rows in order. -/
theorem Layout.forRows_eq {B : BlockMat α} (h : B.Layout) (s : σ) (body : Int → Int → Int → σ → Res σ)
    (g : Int → σ → Res σ)
    (hg : ∀ i l s, 0 ≤ i → i < B.nI → 0 ≤ l → l < vecAt B.rowOff (i + 1) - vecAt B.rowOff i →
      body i (vecAt B.rowOff i + l) l s = g (vecAt B.rowOff i + l) s) :
    B.forRows s body = forUp 0 B.rows s g := by
  have hlen := h.rowOff_ok.length_pos
  unfold nI at hg
  have inner : ∀ i s, 0 ≤ i → i < (B.rowOff.length : Int) - 1 →
      (do
        let lo ← rd B.rowOff i
        let hi ← rd B.rowOff (i + 1)
        let st ← forUp lo hi ((0 : Int), s) (fun row st => do
          let s ← body i row st.1 st.2
          .ok (st.1 + 1, s))
        .ok st.2) = forUp (vecAt B.rowOff i) (vecAt B.rowOff (i + 1)) s g := by
    intro i s i0 i1
    rw [rd_vecAt B.rowOff i0 (by omega), ok_bind, rd_vecAt B.rowOff (by omega) (by omega), ok_bind]
    have key : ∀ (n : Nat) (l : Int) (s : σ), 0 ≤ l → vecAt B.rowOff i + l + n = vecAt B.rowOff (i + 1) →
        forUp (vecAt B.rowOff i + l) (vecAt B.rowOff (i + 1)) (l, s) (fun row st => do
          let s ← body i row st.1 st.2
          .ok (st.1 + 1, s))
        = (forUp (vecAt B.rowOff i + l) (vecAt B.rowOff (i + 1)) s g >>= fun s => .ok (l + n, s)) := by
      intro n
      induction n with
      | zero =>
        intro l s l0 hl
        rw [forUp_nil (by omega), forUp_nil (by omega), ok_bind]
        simp
      | succ n ih =>
        intro l s l0 hl
        rw [forUp_cons (by omega), forUp_cons (by omega)]
        simp only
        rw [hg i l s i0 i1 l0 (by omega), bind_assoc, bind_assoc]
        congr 1
        funext s'
        rw [ok_bind]
        have := ih (l + 1) s' (by omega) (by omega)
        rw [show vecAt B.rowOff i + (l + 1) = vecAt B.rowOff i + l + 1 by omega] at this
        rw [this]
        congr 1
        funext s''
        congr 2
        omega
    have hle := h.rowOff_ok.le i0 (show i ≤ i + 1 by omega) (by omega)
    have := key (vecAt B.rowOff (i + 1) - vecAt B.rowOff i).toNat 0 s le_rfl (by omega)
    rw [Int.add_zero] at this
    rw [this, bind_assoc]
    simp only [ok_bind]
    exact bind_pure _
  have outer : ∀ k : Nat, (k : Int) ≤ (B.rowOff.length : Int) - 1 →
      forUp 0 (k : Int) s (fun i s => do
        let lo ← rd B.rowOff i
        let hi ← rd B.rowOff (i + 1)
        let st ← forUp lo hi ((0 : Int), s) (fun row st => do
          let s ← body i row st.1 st.2
          .ok (st.1 + 1, s))
        .ok st.2) = forUp 0 (vecAt B.rowOff k) s g := by
    intro k
    induction k with
    | zero =>
      intro _
      rw [forUp_nil (by simp), forUp_nil (by simp [h.rowOff_ok.at_zero])]
    | succ k ih =>
      intro hk
      push_cast at hk ⊢
      rw [forUp_last (by omega), ih (by omega),
        ← forUp_append (h.rowOff_ok.nonneg (show (0:Int) ≤ k by omega) (by omega))
          (h.rowOff_ok.le (show (0:Int) ≤ k by omega) (show (k : Int) ≤ k + 1 by omega) (by omega))]
      congr 1
      funext s'
      exact inner k s' (by omega) (by omega)
  have := outer (B.rowOff.length - 1) (by omega)
  rw [show ((B.rowOff.length - 1 : Nat) : Int) = (B.rowOff.length : Int) - 1 by omega, h.rowOff_ok.at_last] at this
  exact this

theorem WF.at_eq {B : BlockMat α} (h : B.WF) {i j : Int} (i0 : 0 ≤ i) (i1 : i < B.nI) (j0 : 0 ≤ j) (j1 : j < B.nJ) :
    B.at' i j = .ok (B.blk i j) := h.layout.at_eq i0 i1 j0 j1

theorem WF.blk_wf {B : BlockMat α} (h : B.WF) (i j : Int) : (B.blk i j).WF := h.layout.blk_wf i j

theorem WF.rowsL_getD {B : BlockMat α} (h : B.WF) {i l : Int} (i0 : 0 ≤ i) (i1 : i < B.nI) (l0 : 0 ≤ l)
    (l1 : l < vecAt B.rowOff (i + 1) - vecAt B.rowOff i) :
    B.rowsL.getD (vecAt B.rowOff i + l).toNat [] = B.brow i l := h.layout.rowsL_getD i0 i1 l0 l1

theorem WF.forRows_eq {B : BlockMat α} (h : B.WF) (s : σ) (body : Int → Int → Int → σ → Res σ)
    (g : Int → σ → Res σ)
    (hg : ∀ i l s, 0 ≤ i → i < B.nI → 0 ≤ l → l < vecAt B.rowOff (i + 1) - vecAt B.rowOff i →
      body i (vecAt B.rowOff i + l) l s = g (vecAt B.rowOff i + l) s) :
    B.forRows s body = forUp 0 B.rows s g := h.layout.forRows_eq s body g hg

end BlockMat

/-- A loop over the entries of a row of a well-formed matrix. -/
theorem Csr.WF.forRow_eq {A : Csr α} (h : A.WF) {l : Int} (l0 : 0 ≤ l) (l1 : l < A.rows) (s : σ)
    (f : Int → α → σ → Res σ) :
    A.forRow l s (fun jj s => do
      let c ← rd A.indices jj
      let d ← rd A.data jj
      f c d s) = (A.row l).foldlM (fun s e => f e.1 e.2 s) s := by
  obtain ⟨n, rs, hn, hrs, rfl⟩ := h.exists_rows
  obtain ⟨k, rfl⟩ := Int.eq_ofNat_of_zero_le l0
  have hk : k < rs.length := by simpa [Csr.ofRows] using l1
  rw [Csr.row_ofRows n rs k hk]
  refine Csr.forRow_ofRows n rs k hk s _ (fun e s => f e.1 e.2 s) ?_
  intro m hm s
  rw [rd_indices_ofRows n rs k m hk hm, ok_bind, rd_data_ofRows n rs k m hk hm, ok_bind]

theorem foldlM_flatMap {β γ : Type} (l : List β) (f : β → List γ) (step : σ → γ → Res σ) (s : σ) :
    (l.flatMap f).foldlM step s = l.foldlM (fun s b => (f b).foldlM step s) s := by
  induction l generalizing s with
  | nil => rfl
  | cons b l ih =>
    rw [List.flatMap_cons, List.foldlM_append, List.foldlM_cons]
    congr 1
    funext s'
    exact ih s'

theorem foldlM_map' {β γ : Type} (l : List β) (f : β → γ) (step : σ → γ → Res σ) (s : σ) :
    (l.map f).foldlM step s = l.foldlM (fun s b => step s (f b)) s := by
  induction l generalizing s with
  | nil => rfl
  | cons b l ih =>
    rw [List.map_cons, List.foldlM_cons, List.foldlM_cons]
    congr 1
    funext s'
    exact ih s'

theorem forUp_iota (n : Nat) (s : σ) (f : Int → σ → Res σ) :
    forUp 0 (n : Int) s f = (iota n).foldlM (fun s i => f i s) s := by
  rw [forUp_zero_eq_foldlM, iota, foldlM_map']
  rfl

/-- The two inner loops visit the entries of the row. -/
theorem BlockMat.WF.forEntries_eq {B : BlockMat α} (h : B.WF) {i l : Int} (i0 : 0 ≤ i) (i1 : i < B.nI) (l0 : 0 ≤ l)
    (l1 : l < vecAt B.rowOff (i + 1) - vecAt B.rowOff i) (s : σ) (body : Int → α → σ → Res σ) :
    B.forEntries i l s body = (B.brow i l).foldlM (fun s e => body e.1 e.2 s) s := by
  have hlen := h.colOff_ok.length_pos
  unfold forEntries brow
  rw [foldlM_flatMap, show (B.colOff.length : Int) - 1 = (B.nJ.toNat : Int) by unfold nJ; omega]
  rw [← forUp_iota B.nJ.toNat s (fun j s => (((B.blk i j).row l).map (fun e => (vecAt B.colOff j + e.1, e.2))).foldlM
    (fun s e => body e.1 e.2 s) s)]
  apply forUp_congr
  intro j s j0 j1
  have j1' : j < B.nJ := by unfold nJ at j1 ⊢; omega
  have hw := h.blk_wf i j
  rw [h.at_eq i0 i1 j0 j1', ok_bind]
  by_cases hz : (B.blk i j).rows = 0 ∨ (B.blk i j).cols = 0
  · rw [if_pos hz]
    have : (B.blk i j).row l = [] := by
      apply List.eq_nil_iff_forall_not_mem.mpr
      intro e he
      have := Csr.mem_row_ok hw he
      omega
    rw [this]
    rfl
  · rw [if_neg hz]
    have hr : l < (B.blk i j).rows := by
      rcases h.block_size i j i0 i1 j0 j1' with he | he
      · rw [he] at hz; exact absurd (Or.inl rfl) hz
      · omega
    rw [rd_vecAt B.colOff j0 (by unfold nJ at j1'; omega), ok_bind,
      hw.forRow_eq l0 hr s (fun c d s => body (vecAt B.colOff j + c) d s), foldlM_map']

theorem BlockMat.WF.brow_ok {B : BlockMat α} (h : B.WF) {i l : Int} (i0 : 0 ≤ i) (i1 : i < B.nI) :
    ∀ e ∈ B.brow i l, 0 ≤ e.1 ∧ e.1 < B.cols := by
  intro e he
  unfold brow at he
  rw [List.mem_flatMap] at he
  obtain ⟨j, hj, he⟩ := he
  have hj := mem_iota.mp hj
  obtain ⟨e', he', rfl⟩ := List.mem_map.mp he
  have hok := Csr.mem_row_ok (h.blk_wf i j) he'
  have j1 : j < B.nJ := by omega
  have a := h.colOff_ok.nonneg hj.1 (by unfold nJ at j1; omega)
  have b := h.colOff_ok.le_last (show 0 ≤ j + 1 by omega) (by unfold nJ at j1; omega)
  rcases h.block_size i j i0 i1 hj.1 j1 with hx | hx
  · rw [hx] at hok
    have : (Csr.empty : Csr α).cols = 0 := rfl
    omega
  · simp only; omega

theorem BlockMat.WF.rowsL_ok {B : BlockMat α} (h : B.WF) : ∀ r ∈ B.rowsL, ∀ e ∈ r, 0 ≤ e.1 ∧ e.1 < B.cols := by
  intro r hr
  obtain ⟨k, hk, rfl⟩ := List.getElem_of_mem hr
  rw [length_rowsL] at hk
  obtain ⟨i, i0, i1, a, b⟩ := h.rowOff_ok.locate (show (0 : Int) ≤ k by omega) (show (k : Int) < B.rows by omega)
  have := h.rowsL_getD i0 i1 (show 0 ≤ (k : Int) - vecAt B.rowOff i by omega) (by omega)
  rw [show (vecAt B.rowOff i + ((k : Int) - vecAt B.rowOff i)).toNat = k by omega, List.getD_eq_getElem?_getD,
    List.getElem?_eq_getElem (by rw [length_rowsL]; omega)] at this
  simp only [Option.getD_some] at this
  rw [this]
  exact h.brow_ok i0 i1

/-- All four loops. -/
theorem BlockMat.WF.loops_eq {τ : Type} {B : BlockMat α} (h : B.WF) (s : τ) (init : Int → τ → σ)
    (body : Int → Int → α → σ → Res σ) (post : Int → τ → σ → Res τ) :
    B.forRows s (fun i row l s => do
      let o ← B.forEntries i l (init row s) (body row)
      post row s o)
    = forUp 0 B.rows s (fun row s => do
        let o ← (B.rowsL.getD row.toNat []).foldlM (fun s e => body row e.1 e.2 s) (init row s)
        post row s o) := by
  apply h.forRows_eq
  intro i l s i0 i1 l0 l1
  rw [h.forEntries_eq i0 i1 l0 l1, h.rowsL_getD i0 i1 l0 l1]

/-! ## Combine -/

theorem fillPairs {N : Nat} [Zero α] (r D : List (Int × α)) (h : D.length + r.length ≤ N) :
    r.foldlM (fun (out : Int × List Int × List α) e => do
      let ind ← wr out.2.1 out.1 e.1
      let dat ← wr out.2.2 out.1 e.2
      (.ok (out.1 + 1, ind, dat) : Res (Int × List Int × List α)))
      ((D.length : Int), padTo N 0 (D.map Prod.fst), padTo N 0 (D.map Prod.snd))
    = .ok (((D ++ r).length : Int), padTo N 0 ((D ++ r).map Prod.fst), padTo N 0 ((D ++ r).map Prod.snd)) := by
  induction r generalizing D with
  | nil => simp
  | cons e r ih =>
    simp only [List.length_cons] at h
    rw [List.foldlM_cons]
    simp only
    rw [wr_padTo (by simp; omega) (by simp), ok_bind, wr_padTo (by simp; omega) (by simp), ok_bind]
    rw [ok_bind]
    have := ih (D ++ [e]) (by simp; omega)
    rw [show (((D ++ [e]).length : Nat) : Int) = (D.length : Int) + 1 by simp, List.map_append, List.map_append] at this
    simp only [List.map_cons, List.map_nil, List.append_assoc, List.cons_append, List.nil_append] at this
    simp only [List.map_append, List.map_cons] at this ⊢
    exact this

theorem sum_lengths_flatten {β : Type} (rs : List (List β)) : rs.flatten.length = (rs.map List.length).sum := by
  rw [List.length_flatten]

theorem Csr.WF.nnz_eq {A : Csr α} (h : A.WF) :
    A.data.length = ((List.range A.rows.toNat).map (fun k : Nat => (A.row (k : Int)).length)).sum := by
  have h1 := h.rowsL_flatten
  have h2 := congrArg List.length h1
  rw [List.length_flatten, List.length_zip, h.indices_len] at h2
  simp only [Nat.min_self] at h2
  rw [← h2, Csr.rowsL, List.map_map]
  rfl

theorem foldl_nnz (l : List (Csr α)) (s : Int) :
    l.foldl (fun s mat => s + mat.nnz) s = s + ((l.map (fun M => M.data.length)).sum : Nat) := by
  induction l generalizing s with
  | nil => simp
  | cons M l ih => rw [List.foldl_cons, ih, List.map_cons, List.sum_cons]; unfold Csr.nnz; push_cast; omega

theorem BlockMat.nnzTotal_eq (B : BlockMat α) :
    B.nnzTotal = ((B.blocks.map (fun r => (r.map (fun M => M.data.length)).sum)).sum : Nat) := by
  have key : ∀ (l : List (List (Csr α))) (s : Int),
      l.foldl (fun s row => row.foldl (fun s mat => s + mat.nnz) s) s
        = s + ((l.map (fun r => (r.map (fun M => M.data.length)).sum)).sum : Nat) := by
    intro l
    induction l with
    | nil => intro s; simp
    | cons r l ih => intro s; rw [List.foldl_cons, ih, foldl_nnz, List.map_cons, List.sum_cons]; push_cast; omega
  unfold nnzTotal
  rw [key]
  simp

theorem list_sum_range_getD {β : Type} (l : List β) (d : β) (f : β → Nat) :
    (l.map f).sum = ∑ k ∈ Finset.range l.length, f (l.getD k d) := by
  induction l with
  | nil => simp
  | cons b l ih =>
    rw [List.map_cons, List.sum_cons, ih, List.length_cons, Finset.sum_range_succ']
    simp [add_comm]

theorem Finset.sum_range_list (n : Nat) (f : Nat → Nat) : ((List.range n).map f).sum = ∑ k ∈ Finset.range n, f k := by
  induction n with
  | zero => simp
  | succ n ih => rw [List.range_succ, List.map_append, List.sum_append, ih, Finset.sum_range_succ]; simp

theorem sum_range_blocks {M : Type} [AddCommMonoid M] {off : List Int} {n : Int} (h : Offsets off n) (F : Nat → M) (I : Nat)
    (hI : I ≤ off.length - 1) :
    ∑ k ∈ Finset.range (vecAt off I).toNat, F k
      = ∑ i ∈ Finset.range I, ∑ l ∈ Finset.range (vecAt off ((i : Nat) + 1 : Int) - vecAt off i).toNat,
          F ((vecAt off i).toNat + l) := by
  have hl := h.length_pos
  induction I with
  | zero => simp [h.at_zero]
  | succ I ih =>
    rw [Finset.sum_range_succ, ← ih (by omega)]
    have h1 := h.le (show (0 : Int) ≤ I by omega) (show (I : Int) ≤ I + 1 by omega) (by omega)
    have h0 := h.nonneg (show (0 : Int) ≤ I by omega) (by omega)
    push_cast
    rw [show (vecAt off (I + 1)).toNat = (vecAt off I).toNat + (vecAt off (I + 1) - vecAt off I).toNat by omega,
      Finset.sum_range_add]

theorem BlockMat.WF.blk_rows_sum {B : BlockMat α} (h : B.WF) {i j : Int} (i0 : 0 ≤ i) (i1 : i < B.nI) (j0 : 0 ≤ j)
    (j1 : j < B.nJ) :
    ∑ l ∈ Finset.range (vecAt B.rowOff (i + 1) - vecAt B.rowOff i).toNat, ((B.blk i j).row (l : Int)).length
      = (B.blk i j).data.length := by
  rcases h.block_size i j i0 i1 j0 j1 with he | he
  · rw [he]
    apply Finset.sum_eq_zero
    intro l _
    rw [Csr.row_ge _ (by simp [Csr.empty]) (by simp [Csr.empty])]
    rfl
  · rw [(h.blk_wf i j).nnz_eq, Finset.sum_range_list, he.1]

theorem BlockMat.WF.nnzTotal_rows {B : BlockMat α} (h : B.WF) : B.nnzTotal = (B.rowsL.flatten.length : Int) := by
  have hr := h.rowOff_ok.length_pos
  have hc := h.colOff_ok.length_pos
  have hrows := h.rowOff_ok.size_nonneg
  rw [nnzTotal_eq, List.length_flatten]
  congr 1
  rw [list_sum_range_getD B.blocks [], list_sum_range_getD B.rowsL [], length_rowsL, h.blocks_len]
  have e1 : B.rows.toNat = (vecAt B.rowOff ((B.rowOff.length - 1 : Nat) : Int)).toNat := by
    rw [show ((B.rowOff.length - 1 : Nat) : Int) = (B.rowOff.length : Int) - 1 by omega, h.rowOff_ok.at_last]
  rw [e1, sum_range_blocks h.rowOff_ok _ _ le_rfl]
  apply Finset.sum_congr rfl
  intro i hi
  have hi := Finset.mem_range.mp hi
  have i0 : (0 : Int) ≤ i := by omega
  have i1 : (i : Int) < B.nI := by unfold nI; omega
  have hlt : i < B.blocks.length := by rw [h.blocks_len]; exact hi
  have hb : ∀ j : Nat, (B.blocks.getD i []).getD j Csr.empty = B.blk i j := by
    intro j
    unfold blk
    rw [if_pos ⟨by omega, by omega⟩]
    rfl
  have hlen : (B.blocks.getD i []).length = B.colOff.length - 1 := by
    rw [List.getD_eq_getElem?_getD, List.getElem?_eq_getElem hlt]
    exact h.block_row_len _ (List.getElem_mem hlt)
  rw [list_sum_range_getD _ Csr.empty, hlen]
  have e2 : ∀ l ∈ Finset.range (vecAt B.rowOff ((i : Nat) + 1 : Int) - vecAt B.rowOff i).toNat,
      (B.rowsL.getD ((vecAt B.rowOff i).toNat + l) []).length
        = ∑ j ∈ Finset.range (B.colOff.length - 1), ((B.blk i j).row (l : Int)).length := by
    intro l hl
    have hl := Finset.mem_range.mp hl
    have h0 := h.rowOff_ok.nonneg i0 (by omega)
    rw [show (vecAt B.rowOff i).toNat + l = (vecAt B.rowOff i + (l : Int)).toNat by omega,
      h.rowsL_getD i0 i1 (by omega) (by omega), brow, List.length_flatMap]
    simp only [List.length_map, iota, List.map_map]
    rw [show B.nJ.toNat = B.colOff.length - 1 by unfold nJ; omega]
    exact Finset.sum_range_list _ _
  rw [Finset.sum_congr rfl e2, Finset.sum_comm]
  apply Finset.sum_congr rfl
  intro j hj
  have hj := Finset.mem_range.mp hj
  rw [hb, h.blk_rows_sum i0 i1 (by omega) (by unfold nJ; omega)]

/-- `Combine` builds the matrix with the combined rows. -/
theorem BlockMat.WF.combine_eq [Zero α] {B : BlockMat α} (h : B.WF) :
    B.combine = .ok (Csr.ofRows B.cols B.rowsL) := by
  have hrows := h.rowOff_ok.size_nonneg
  have hcols := h.colOff_ok.size_nonneg
  unfold combine
  simp only
  rw [h.nnzTotal_rows, mkVec_int (by omega), ok_bind, mkVec_nat, ok_bind, mkVec_nat, ok_bind]
  have e1 : (B.rows + 1).toNat = B.rowsL.length + 1 := by rw [length_rowsL]; omega
  rw [e1, show (0 : Int) = ((0 : Nat) : Int) by rfl, wr_nat (by simp)]
  rw [ok_bind]
  have hinit : (List.replicate (B.rowsL.length + 1) ((0 : Nat) : Int)).set 0 ((0 : Nat) : Int)
      = padTo (B.rowsL.length + 1) 0 (ptrs (B.rowsL.take 0)) := by
    rw [List.take_zero, ← ptrs_zero_pad (β := Int × α) _ (by omega)]
    simp [List.replicate_succ]
  rw [hinit]
  have hl := h.loops_eq
    (padTo (B.rowsL.length + 1) 0 (ptrs (B.rowsL.take 0)), ((0 : Nat) : Int),
      List.replicate B.rowsL.flatten.length ((0 : Nat) : Int), List.replicate B.rowsL.flatten.length (0 : α))
    (fun _ st => st.2)
    (fun _ col d (out : Int × List Int × List α) => do
      let ind ← wr out.2.1 out.1 col
      let dat ← wr out.2.2 out.1 d
      .ok (out.1 + 1, ind, dat))
    (fun row st out => do
      let indptr ← wr st.1 (row + 1) out.1
      (.ok (indptr, out) : Res (List Int × Int × List Int × List α)))
  refine (congrArg (fun z => z >>= _) hl).trans ?_
  have hseq := forUp_seq (n := (B.rowsL.length : Int)) (by omega)
    (S := fun k : Int => ((padTo (B.rowsL.length + 1) 0 (ptrs (B.rowsL.take k.toNat)),
      (((B.rowsL.take k.toNat).flatten.length : Nat) : Int),
      padTo B.rowsL.flatten.length 0 ((B.rowsL.take k.toNat).flatten.map Prod.fst),
      padTo B.rowsL.flatten.length 0 ((B.rowsL.take k.toNat).flatten.map Prod.snd)) :
        List Int × Int × List Int × List α))
    (body := fun row st => do
        let o ← (B.rowsL.getD row.toNat []).foldlM (fun (out : Int × List Int × List α) e => do
          let ind ← wr out.2.1 out.1 e.1
          let dat ← wr out.2.2 out.1 e.2
          .ok (out.1 + 1, ind, dat)) st.2
        let indptr ← wr st.1 (row + 1) o.1
        .ok (indptr, o)) (by
      intro j j0 j1
      obtain ⟨k, rfl⟩ := Int.eq_ofNat_of_zero_le j0
      have hk : k < B.rowsL.length := by omega
      simp only [Int.toNat_natCast, show ((k : Int) + 1).toNat = k + 1 by omega]
      have hg : B.rowsL.getD k [] = B.rowsL[k] := by
        rw [List.getD_eq_getElem?_getD, List.getElem?_eq_getElem hk]; rfl
      have ht : B.rowsL.take (k + 1) = B.rowsL.take k ++ [B.rowsL[k]] := take_succ_eq hk
      have hf : (B.rowsL.take (k + 1)).flatten = (B.rowsL.take k).flatten ++ B.rowsL[k] := by
        rw [ht, List.flatten_append]; simp
      have hlen : (B.rowsL.take k).flatten.length + B.rowsL[k].length ≤ B.rowsL.flatten.length := by
        have : B.rowsL.flatten = (B.rowsL.take (k + 1)).flatten ++ (B.rowsL.drop (k + 1)).flatten := by
          rw [← List.flatten_append, List.take_append_drop]
        rw [this, hf]
        simp only [List.length_append]
        omega
      rw [hg, fillPairs _ _ hlen, ok_bind]
      simp only
      rw [← hf, wr_ptrs B.rowsL hk (by omega), ok_bind])
  rw [show B.rows = (B.rowsL.length : Int) by rw [length_rowsL]; omega]
  have hS0 : (padTo (B.rowsL.length + 1) 0 (ptrs (B.rowsL.take 0)), ((0 : Nat) : Int),
      List.replicate B.rowsL.flatten.length ((0 : Nat) : Int), List.replicate B.rowsL.flatten.length (0 : α))
      = ((padTo (B.rowsL.length + 1) 0 (ptrs (B.rowsL.take (0 : Int).toNat)),
      (((B.rowsL.take (0 : Int).toNat).flatten.length : Nat) : Int),
      padTo B.rowsL.flatten.length 0 ((B.rowsL.take (0 : Int).toNat).flatten.map Prod.fst),
      padTo B.rowsL.flatten.length 0 ((B.rowsL.take (0 : Int).toNat).flatten.map Prod.snd)) :
        List Int × Int × List Int × List α) := by
    simp [padTo]
  rw [hS0]
  refine (congrArg (fun z => z >>= _) hseq).trans ?_
  rw [ok_bind]
  simp only [Int.toNat_natCast, List.take_length]
  rw [padTo_full (by simp), padTo_full (List.length_map _), padTo_full (List.length_map _)]
  exact Csr.ofArrays_ofRows hcols h.rowsL_ok

end Linalg
