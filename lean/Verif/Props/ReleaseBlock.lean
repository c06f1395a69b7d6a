import Verif.Model.ReleaseBlock
import Verif.Props.ReleaseSparse
import Verif.Props.Block

/-! # C142: block matrices without assertions -/

namespace Linalg
open Cpp

variable {α β σ R : Type}

/-- **C142.**  With assertions the functions are those of `Model/Block`. -/
theorem C142_debug :
    (∀ ro co : List Int, (Rel.blockNew .debug ro co : Res (BlockMat α)) = BlockMat.new ro co) ∧
    (∀ (B : BlockMat α) (i j : Int) (M : Csr α), Rel.blockGet .debug B i j = B.getBlock i j ∧ Rel.blockSet .debug B i j M = B.setBlock i j M ∧
      Rel.blockTranspose .debug B = B.transpose) ∧
    (∀ [Zero α] (B : BlockMat α), Rel.blockCombine .debug B = B.combine) ∧
    ∀ [Zero α] [Add α] [Mul α] (B : BlockMat α) (x y : List α), Rel.blockMult .debug B x y = B.mult x y ∧ Rel.blockMultAT .debug B x y = B.multAT x y := by
  have hs : ∀ (B : BlockMat α) (i j : Int) (M : Csr α), Rel.blockSet .debug B i j M = B.setBlock i j M := by
    intro B i j M
    unfold Rel.blockSet Rel.blockFits BlockMat.setBlock
    simp only [bind_assoc]
  refine ⟨fun _ _ => rfl, fun B i j M => ⟨rfl, hs B i j M, ?_⟩, fun B => ?_, fun B x y => ⟨rfl, rfl⟩⟩
  · unfold Rel.blockTranspose BlockMat.transpose
    simp only [hs]
    rfl
  · unfold Rel.blockCombine BlockMat.combine
    simp only [Rel.ofArrays_debug]

theorem Refines.forRows {B : BlockMat α} {s : σ} {f g : Int → Int → Int → σ → Res σ} (h : ∀ i r l s, Refines (f i r l s) (g i r l s)) :
    Refines (B.forRows s f) (B.forRows s g) :=
  Refines.forUp fun _ _ => (Refines.refl _).bind fun _ => (Refines.refl _).bind fun _ =>
    Refines.bind (Refines.forUp fun _ _ => (h _ _ _ _).bind fun _ => Refines.refl _) fun _ => Refines.refl _

theorem Refines.forEntries {B : BlockMat α} {i l : Int} {s : σ} {f g : Int → α → σ → Res σ} (h : ∀ c d s, Refines (f c d s) (g c d s)) :
    Refines (B.forEntries i l s f) (B.forEntries i l s g) := by
  refine Refines.forUp fun _ _ => (Refines.refl _).bind fun _ => ?_
  split
  · exact Refines.refl _
  · exact (Refines.refl _).bind fun _ => Refines.forRow fun _ _ => (Refines.refl _).bind fun _ => (Refines.refl _).bind fun _ => h _ _ _

theorem Refines.blockSet (B : BlockMat α) (i j : Int) (M : Csr α) : Refines (Rel.blockSet .debug B i j M) (Rel.blockSet .release B i j M) :=
  Refines.bind (s := Rel.blockFits .release B i j M) (fun _ _ => rfl) fun _ => Refines.refl _

/-- **C142.**  A call that passes the assertions gives the same result when they are compiled away. -/
theorem C142_same :
    (∀ ro co : List Int, Refines (BlockMat.new ro co : Res (BlockMat α)) (Rel.blockNew .release ro co)) ∧
    (∀ (B : BlockMat α) (i j : Int) (M : Csr α), Refines (B.getBlock i j) (Rel.blockGet .release B i j) ∧
      Refines (B.setBlock i j M) (Rel.blockSet .release B i j M) ∧ Refines B.transpose (Rel.blockTranspose .release B)) ∧
    (∀ [Zero α] (B : BlockMat α), Refines B.combine (Rel.blockCombine .release B)) ∧
    ∀ [Zero α] [Add α] [Mul α] (B : BlockMat α) (x y : List α), Refines (B.mult x y) (Rel.blockMult .release B x y) ∧
      Refines (B.multAT x y) (Rel.blockMultAT .release B x y) := by
  refine ⟨fun ro co => ?_, fun B i j M => ⟨?_, ?_, ?_⟩, fun B => ?_, fun B x y => ⟨?_, ?_⟩⟩
  · exact (Refines.refl _).bind fun _ => (Refines.refl _).bind fun _ => (Refines.assert _).bind fun _ => (Refines.assert _).bind fun _ => Refines.refl _
  · exact (Refines.assert _).bind fun _ => (Refines.assert _).bind fun _ => Refines.refl _
  · rw [← ((C142_debug.2.1) B i j M).2.1]
    exact Refines.blockSet B i j M
  · rw [← ((C142_debug.2.1) B i j M).2.2]
    refine Refines.bind ?_ fun _ => Refines.forUp fun _ _ => Refines.forUp fun _ _ => Refines.bind ?_ fun _ => Refines.blockSet _ _ _ _
    · exact (Refines.refl _).bind fun _ => (Refines.refl _).bind fun _ => (Refines.assert _).bind fun _ => (Refines.assert _).bind fun _ => Refines.refl _
    · exact (Refines.assert _).bind fun _ => (Refines.assert _).bind fun _ => Refines.refl _
  · rw [← (C142_debug.2.2.1) B]
    exact (Refines.refl _).bind fun _ => (Refines.refl _).bind fun _ => (Refines.refl _).bind fun _ => (Refines.refl _).bind fun _ =>
      (Refines.refl _).bind fun _ => Refines.ofArrays _ _ _ _ _
  · exact (Refines.assert _).bind fun _ => (Refines.assert _).bind fun _ => Refines.forRows fun _ _ _ _ =>
      (Refines.forEntries fun _ _ _ => (Refines.vrd _ _).bind fun _ => Refines.refl _).bind fun _ => Refines.vwr _ _ _
  · exact (Refines.assert _).bind fun _ => (Refines.assert _).bind fun _ => Refines.forRows fun _ _ _ _ =>
      Refines.forEntries fun _ _ _ => (Refines.vrd _ _).bind fun _ => (Refines.vrd _ _).bind fun _ => Refines.vwr _ _ _

/-! ## SetBlock and Transpose -/

theorem BlockMat.layout_mk' {rows cols : Int} {ro co : List Int} {F : Int → Int → Csr α} (hr : Offsets ro rows) (hc : Offsets co cols)
    (hF : ∀ i j, 0 ≤ i → i < (ro.length : Int) - 1 → 0 ≤ j → j < (co.length : Int) - 1 → (F i j).WF) : (mk' rows cols ro co F).Layout where
  rowOff_ok := hr
  colOff_ok := hc
  blocks_len := by simp [mk', blocksFn]
  block_row_len := by
    intro r hr
    rw [mk', blocksFn, vecFn_iota] at hr
    obtain ⟨i, -, rfl⟩ := List.mem_map.mp hr
    simp [mk']
  block_wf := by
    intro r hr M hM
    rw [mk', blocksFn, vecFn_iota] at hr
    obtain ⟨i, hi, rfl⟩ := List.mem_map.mp hr
    rw [vecFn_iota] at hM
    obtain ⟨j, hj, rfl⟩ := List.mem_map.mp hM
    have hi := mem_iota.mp hi
    have hj := mem_iota.mp hj
    exact hF i j hi.1 (by omega) hj.1 (by omega)

theorem Rel.blockGet_eq {B : BlockMat α} (h : B.Layout) {i j : Int} (i0 : 0 ≤ i) (i1 : i < B.nI) (j0 : 0 ≤ j) (j1 : j < B.nJ) :
    Rel.blockGet .release B i j = .ok (B.blk i j) := h.at_eq i0 i1 j0 j1

theorem Rel.blockSet_mk' {rows cols : Int} {ro co : List Int} {F : Int → Int → Csr α} {i j : Int} {M : Csr α}
    (i0 : 0 ≤ i) (i1 : i < (ro.length : Int) - 1) (j0 : 0 ≤ j) (j1 : j < (co.length : Int) - 1) :
    Rel.blockSet .release (BlockMat.mk' rows cols ro co F) i j M
      = .ok (BlockMat.mk' rows cols ro co (fun a b => if a = i ∧ b = j then M else F a b)) := by
  show (do
    let row ← rd (BlockMat.mk' rows cols ro co F).blocks i
    let row ← wr row j M
    let blocks ← wr (BlockMat.mk' rows cols ro co F).blocks i row
    (.ok { BlockMat.mk' rows cols ro co F with blocks := blocks } : Res (BlockMat α))) = _
  simp only [BlockMat.mk']
  unfold blocksFn
  rw [rd_vecFn i0 (by omega), ok_bind, wr_vecFn _ j0 (by omega), ok_bind, wr_vecFn _ i0 (by omega), ok_bind]
  congr 2
  apply vecFn_congr
  intro a _ _
  by_cases ha : a = i
  · subst ha; simp
  · simp [ha]

/-- **C142.**  Without assertions `SetBlock` stores a matrix of any size at a place inside the layout, and `GetBlock` returns it; outside the layout, also for
a negative number, both reach past the vectors. -/
theorem C142_setBlock (B : BlockMat α) (h : B.Layout) (i j : Int) (M : Csr α) (hM : M.WF) :
    ((0 ≤ i ∧ i < B.nI ∧ 0 ≤ j ∧ j < B.nJ) →
      ∃ B', Rel.blockSet .release B i j M = .ok B' ∧ B'.Layout ∧ B'.rows = B.rows ∧ B'.cols = B.cols ∧ B'.rowOff = B.rowOff ∧ B'.colOff = B.colOff ∧
        Rel.blockGet .release B' i j = .ok M ∧
        ∀ a b, ¬ (a = i ∧ b = j) → Rel.blockGet .release B' a b = Rel.blockGet .release B a b) ∧
    (¬ (0 ≤ i ∧ i < B.nI ∧ 0 ≤ j ∧ j < B.nJ) →
      Rel.blockSet .release B i j M = .error .outOfBounds ∧ Rel.blockGet .release B i j = .error .outOfBounds) := by
  have hoob : ∀ {B : BlockMat α} {i j : Int}, B.Layout → ¬ (0 ≤ i ∧ i < B.nI ∧ 0 ≤ j ∧ j < B.nJ) →
      (∀ M, Rel.blockSet .release B i j M = .error .outOfBounds) ∧ Rel.blockGet .release B i j = .error .outOfBounds := by
    intro B i j h hb
    have h1 := h.blocks_len
    have h2 := h.rowOff_ok.length_pos
    have h3 := h.colOff_ok.length_pos
    unfold BlockMat.nI BlockMat.nJ at hb
    have hg : Rel.blockGet .release B i j = (do
      let r ← rd B.blocks i
      rd r j) := rfl
    have hs : ∀ M, Rel.blockSet .release B i j M = (do
      let row ← rd B.blocks i
      let row ← wr row j M
      let blocks ← wr B.blocks i row
      (.ok { B with blocks := blocks } : Res (BlockMat α))) := fun _ => rfl
    rw [hg]
    simp only [hs]
    by_cases hi : i < 0 ∨ (B.blocks.length : Int) ≤ i
    · rw [rd_oob hi]
      exact ⟨fun _ => rfl, rfl⟩
    · rw [rd_int (by omega) (by omega)]
      have hr := h.block_row_len _ (List.getElem_mem (show i.toNat < B.blocks.length by omega))
      refine ⟨fun M => ?_, ?_⟩
      · rw [ok_bind, wr_oob (by omega)]; rfl
      · rw [ok_bind, rd_oob (by omega)]
  refine ⟨?_, fun hb => ⟨(hoob h hb).1 M, (hoob h hb).2⟩⟩
  rintro ⟨i0, i1, j0, j1⟩
  have hw : (BlockMat.mk' B.rows B.cols B.rowOff B.colOff (fun a b => if a = i ∧ b = j then M else B.blk a b)).Layout := by
    apply BlockMat.layout_mk' h.rowOff_ok h.colOff_ok
    intro a b _ _ _ _
    split
    · exact hM
    · exact h.blk_wf a b
  refine ⟨_, ?_, hw, rfl, rfl, rfl, rfl, ?_, ?_⟩
  · conv_lhs => rw [h.eq_mk']
    exact Rel.blockSet_mk' i0 i1 j0 j1
  · rw [Rel.blockGet_eq hw i0 i1 j0 j1, BlockMat.blk_mk' i0 i1 j0 j1, if_pos ⟨rfl, rfl⟩]
  · intro a b hab
    by_cases hin : 0 ≤ a ∧ a < B.nI ∧ 0 ≤ b ∧ b < B.nJ
    · obtain ⟨a0, a1, b0, b1⟩ := hin
      rw [Rel.blockGet_eq hw a0 a1 b0 b1, BlockMat.blk_mk' a0 a1 b0 b1, if_neg hab, Rel.blockGet_eq h a0 a1 b0 b1]
    · rw [(hoob h hin).2, (hoob hw hin).2]

/-- **C142.**  Without assertions `Transpose` never fails: block `(J, I)` of the result is block `(I, J)`, of the wrong size unless it is square, and not
transposed. -/
theorem C142_transpose (B : BlockMat α) (h : B.Layout) :
    ∃ T, Rel.blockTranspose .release B = .ok T ∧ T.Layout ∧ T.rows = B.cols ∧ T.cols = B.rows ∧ T.rowOff = B.colOff ∧ T.colOff = B.rowOff ∧
      ∀ i j, Rel.blockGet .release T j i = Rel.blockGet .release B i j := by
  have h2 := h.rowOff_ok.length_pos
  have h3 := h.colOff_ok.length_pos
  have hw : (BlockMat.mk' B.cols B.rows B.colOff B.rowOff (fun q p => B.blk p q)).Layout :=
    BlockMat.layout_mk' h.colOff_ok h.rowOff_ok (fun q p _ _ _ _ => h.blk_wf p q)
  have hrun : Rel.blockTranspose .release B = .ok (BlockMat.mk' B.cols B.rows B.colOff B.rowOff (fun q p => B.blk p q)) := by
    unfold Rel.blockTranspose
    rw [(C142_same.1) _ _ _ (BlockMat.new_eq h.colOff_ok h.rowOff_ok), ok_bind]
    obtain ⟨T, hT1, G, hT2, hG⟩ := forUp_inv (a := 0) (b := (B.rowOff.length : Int) - 1) (by omega)
      (f := fun i T => forUp 0 ((B.colOff.length : Int) - 1) T (fun j T => do
        let blk ← Rel.blockGet .release B i j
        Rel.blockSet .release T j i blk))
      (fun i T => ∃ F, T = BlockMat.mk' B.cols B.rows B.colOff B.rowOff F ∧
        ∀ q p, 0 ≤ q → q < (B.colOff.length : Int) - 1 → 0 ≤ p → p < i → F q p = B.blk p q)
      (s := BlockMat.mk' B.cols B.rows B.colOff B.rowOff (fun _ _ => Csr.empty)) ⟨_, rfl, fun _ _ _ _ _ _ => by omega⟩ (by
        rintro i T i0 i1 ⟨F, rfl, hF⟩
        obtain ⟨T', e1, G, rfl, e2, e3⟩ := forUp_inv (a := 0) (b := (B.colOff.length : Int) - 1) (by omega)
          (f := fun j T => do
            let blk ← Rel.blockGet .release B i j
            Rel.blockSet .release T j i blk)
          (fun j T => ∃ G, T = BlockMat.mk' B.cols B.rows B.colOff B.rowOff G ∧ (∀ q, 0 ≤ q → q < j → G q i = B.blk i q) ∧
            ∀ q p, p ≠ i → G q p = F q p)
          (s := BlockMat.mk' B.cols B.rows B.colOff B.rowOff F) ⟨F, rfl, fun _ _ _ => by omega, fun _ _ _ => rfl⟩ (by
            rintro j T j0 j1 ⟨G, rfl, hG1, hG2⟩
            rw [Rel.blockGet_eq h i0 i1 j0 j1, ok_bind, Rel.blockSet_mk' j0 j1 i0 i1]
            refine ⟨_, rfl, _, rfl, ?_, ?_⟩
            · intro q q0 q1
              by_cases hq : q = j
              · rw [if_pos ⟨hq, rfl⟩, hq]
              · rw [if_neg (fun hh => hq hh.1)]; exact hG1 q q0 (by omega)
            · intro q p hp
              rw [if_neg (fun hh => hp hh.2)]; exact hG2 q p hp)
        refine ⟨_, e1, G, rfl, ?_⟩
        intro q p q0 q1 p0 p1
        by_cases hp : p = i
        · rw [hp]; exact e2 q q0 q1
        · rw [e3 q p hp]; exact hF q p q0 q1 p0 (by omega))
    rw [hT1, hT2]
    congr 1
    unfold BlockMat.mk'
    congr 1
    exact blocksFn_congr fun q p q0 q1 p0 p1 => hG q p q0 (by omega) p0 (by omega)
  refine ⟨_, hrun, hw, rfl, rfl, rfl, rfl, ?_⟩
  intro i j
  by_cases hin : 0 ≤ i ∧ i < B.nI ∧ 0 ≤ j ∧ j < B.nJ
  · obtain ⟨i0, i1, j0, j1⟩ := hin
    rw [Rel.blockGet_eq hw j0 j1 i0 i1, Rel.blockGet_eq h i0 i1 j0 j1, BlockMat.blk_mk' (ro := B.colOff) (co := B.rowOff) j0 j1 i0 i1]
  · have he : (Csr.empty : Csr α).WF :=
      ⟨le_rfl, le_rfl, by simp [Csr.empty], rfl, by simp [Csr.empty], rfl, rfl, by simp [Csr.empty]⟩
    have hT : ¬ (0 ≤ j ∧ j < (BlockMat.mk' B.cols B.rows B.colOff B.rowOff (fun q p => B.blk p q)).nI ∧ 0 ≤ i ∧
        i < (BlockMat.mk' B.cols B.rows B.colOff B.rowOff (fun q p => B.blk p q)).nJ) := by
      unfold BlockMat.nI BlockMat.nJ at hin ⊢
      simp only [BlockMat.mk']
      omega
    rw [((C142_setBlock B h i j Csr.empty he).2 hin).2, ((C142_setBlock _ hw j i Csr.empty he).2 hT).2]

/-! ## Products -/

/-- Local row `i` of every block in block row `I` that is not empty exists, and its columns, shifted, are all `good`. -/
def BlockMat.RowOk (B : BlockMat α) (I i : Int) (good : Int → Prop) : Prop :=
  ∀ J, 0 ≤ J → J < B.nJ → ((B.blk I J).rows = 0 ∨ (B.blk I J).cols = 0) ∨
    (i < (B.blk I J).rows ∧ ∀ e ∈ (B.blk I J).row i, good (vecAt B.colOff J + e.1))

theorem BlockMat.Layout.forEntries_eq {B : BlockMat α} (h : B.Layout) {i l : Int} (i0 : 0 ≤ i) (i1 : i < B.nI) (l0 : 0 ≤ l) {good : Int → Prop}
    (hok : B.RowOk i l good) (s : σ) (body : Int → α → σ → Res σ) :
    B.forEntries i l s body = (B.brow i l).foldlM (fun s e => body e.1 e.2 s) s := by
  have hlen := h.colOff_ok.length_pos
  unfold forEntries brow
  rw [foldlM_flatMap, show (B.colOff.length : Int) - 1 = (B.nJ.toNat : Int) by unfold nJ; omega]
  rw [← forUp_iota B.nJ.toNat s (fun j s => (((B.blk i j).row l).map (fun e => (vecAt B.colOff j + e.1, e.2))).foldlM
    (fun s e => body e.1 e.2 s) s)]
  apply forUp_congr
  intro j s j0 j1
  have j1' : j < B.nJ := by unfold nJ at j1 ⊢; omega
  have hw := h.blk_wf i j
  rw [h.at_eq i0 i1 j0 j1', ok_bind]
  by_cases hz : (B.blk i j).rows = 0 ∨ (B.blk i j).cols = 0
  · rw [if_pos hz]
    have : (B.blk i j).row l = [] := by
      apply List.eq_nil_iff_forall_not_mem.mpr
      intro e he
      have := Csr.mem_row_ok hw he
      omega
    rw [this]
    rfl
  · rw [if_neg hz]
    have hr := ((hok j j0 j1').resolve_left hz).1
    rw [rd_vecAt B.colOff j0 (by unfold nJ at j1'; omega), ok_bind,
      hw.forRow_eq l0 hr s (fun c d s => body (vecAt B.colOff j + c) d s), foldlM_map']

theorem BlockMat.RowOk.brow {B : BlockMat α} (h : B.Layout) {i l : Int} {good : Int → Prop} (hok : B.RowOk i l good) :
    ∀ e ∈ B.brow i l, 0 ≤ e.1 ∧ good e.1 := by
  intro e he
  unfold BlockMat.brow at he
  rw [List.mem_flatMap] at he
  obtain ⟨j, hj, he⟩ := he
  have hj := mem_iota.mp hj
  obtain ⟨e', he', rfl⟩ := List.mem_map.mp he
  have hr := Csr.mem_row_ok (h.blk_wf i j) he'
  have j1 : j < B.nJ := by omega
  have a := h.colOff_ok.nonneg hj.1 (by unfold nJ at j1; omega)
  refine ⟨by simp only; omega, ((hok j hj.1 j1).resolve_left ?_).2 e' he'⟩
  omega

theorem BlockMat.Layout.forEntries_fails {B : BlockMat α} (h : B.Layout) {i l : Int} (i0 : 0 ≤ i) (i1 : i < B.nI) (l0 : 0 ≤ l) (I : σ → Prop)
    (good : Int → Prop) {s : σ} (hs : I s) {body : Int → α → σ → Res σ}
    (hgood : ∀ c d s, 0 ≤ c → I s → good c → ∃ s', body c d s = .ok s' ∧ I s')
    (hbad : ∀ c d s, 0 ≤ c → I s → ¬ good c → body c d s = .error .outOfBounds) (hno : ¬ B.RowOk i l good) :
    B.forEntries i l s body = .error .outOfBounds := by
  have hlen := h.colOff_ok.length_pos
  unfold BlockMat.RowOk at hno
  simp only [not_forall] at hno
  obtain ⟨j, j0, j1, hj⟩ := hno
  unfold forEntries
  refine forUp_fails (fun _ => I) (fun j => ((B.blk i j).rows = 0 ∨ (B.blk i j).cols = 0) ∨
    (l < (B.blk i j).rows ∧ ∀ e ∈ (B.blk i j).row l, good (vecAt B.colOff j + e.1))) .outOfBounds hs ?_ ?_
    ⟨j, j0, by unfold nJ at j1; exact j1, hj⟩
  · intro j s j0 j1 hI hg
    have a := h.colOff_ok.nonneg j0 (by omega)
    have hw := h.blk_wf i j
    rw [h.at_eq i0 i1 j0 (by unfold nJ; exact j1), ok_bind]
    by_cases hz : (B.blk i j).rows = 0 ∨ (B.blk i j).cols = 0
    · rw [if_pos hz]; exact ⟨s, rfl, hI⟩
    · rw [if_neg hz]
      obtain ⟨hr, hg⟩ := hg.resolve_left hz
      rw [rd_vecAt B.colOff j0 (by omega), ok_bind, hw.forRow_eq l0 hr s (fun c d s => body (vecAt B.colOff j + c) d s)]
      exact foldlM_keep I hI fun s e he hI => hgood _ _ _ (by have := Csr.mem_row_ok hw he; omega) hI (hg e he)
  · intro j s j0 j1 hI hg
    have a := h.colOff_ok.nonneg j0 (by omega)
    have hw := h.blk_wf i j
    rw [h.at_eq i0 i1 j0 (by unfold nJ; exact j1), ok_bind]
    rw [not_or] at hg
    rw [if_neg hg.1, rd_vecAt B.colOff j0 (by omega), ok_bind]
    by_cases hr : l < (B.blk i j).rows
    · rw [hw.forRow_eq l0 hr s (fun c d s => body (vecAt B.colOff j + c) d s)]
      have hg := hg.2
      have hex : ∃ e ∈ (B.blk i j).row l, ¬ good (vecAt B.colOff j + e.1) := by
        by_contra hne
        push Not at hne
        exact hg ⟨hr, hne⟩
      exact foldlM_fails I (fun e => good (vecAt B.colOff j + e.1)) .outOfBounds hI
        (fun s e he hI hge => hgood _ _ _ (by have := Csr.mem_row_ok hw he; omega) hI hge)
        (fun s e he hI hge => hbad _ _ _ (by have := Csr.mem_row_ok hw he; omega) hI hge) hex
    · obtain ⟨n, rs, hn, hrs, hrs'⟩ := hw.exists_rows
      rw [hrs'] at hr ⊢
      exact forRow_oob (Or.inr (by simpa [Csr.ofRows] using hr)) _ _

/-- The outer loops as one loop over the rows. -/
theorem BlockMat.Layout.forRows_blockOf {B : BlockMat α} (h : B.Layout) (s : σ) (body : Int → Int → Int → σ → Res σ) :
    B.forRows s body = forUp 0 B.rows s (fun p s => body (blockOf B.rowOff p) p (p - vecAt B.rowOff (blockOf B.rowOff p)) s) := by
  apply h.forRows_eq
  intro i l s i0 i1 l0 l1
  rw [blockOf_eq h.rowOff_ok i0 i1 l0 l1]
  congr 1
  omega

/-- Every row is row `i` of some block row `I`. -/
theorem BlockMat.Layout.blockOf_ok {B : BlockMat α} (h : B.Layout) {p : Int} (p0 : 0 ≤ p) (p1 : p < B.rows) :
    ∃ I i, p = vecAt B.rowOff I + i ∧ 0 ≤ I ∧ I < B.nI ∧ 0 ≤ i ∧ i < vecAt B.rowOff (I + 1) - vecAt B.rowOff I ∧ blockOf B.rowOff p = I ∧
      p - vecAt B.rowOff (blockOf B.rowOff p) = i := by
  obtain ⟨I, I0, I1, a, b⟩ := h.rowOff_ok.locate p0 p1
  have e := blockOf_eq h.rowOff_ok I0 I1 (l := p - vecAt B.rowOff I) (by omega) (by omega)
  rw [show vecAt B.rowOff I + (p - vecAt B.rowOff I) = p by omega] at e
  exact ⟨I, p - vecAt B.rowOff I, by omega, I0, I1, by omega, by omega, e, by rw [e]⟩

theorem sum_brow [NonUnitalNonAssocSemiring R] {B : BlockMat R} (h : B.Layout) (I i : Int) (f : Int → R) :
    ((B.brow I i).map (fun e => e.2 * f e.1)).sum
      = ∑ J ∈ Finset.Ico 0 B.nJ, ∑ c ∈ Finset.Ico 0 (B.blk I J).cols, (B.blk I J).coef i c * f (vecAt B.colOff J + c) := by
  have hlen := h.colOff_ok.length_pos
  unfold BlockMat.brow
  have e1 : ∀ (l : List Int) (g : Int → List (Int × R)), ((l.flatMap g).map (fun e => e.2 * f e.1)).sum
      = (l.map (fun j => ((g j).map (fun e => e.2 * f e.1)).sum)).sum := by
    intro l g
    induction l with
    | nil => rfl
    | cons j l ih => rw [List.flatMap_cons, List.map_append, List.sum_append, ih, List.map_cons, List.sum_cons]
  rw [e1, sum_iota, show ((B.nJ.toNat : Nat) : Int) = B.nJ by unfold BlockMat.nJ; omega]
  apply Finset.sum_congr rfl
  intro J _
  rw [List.map_map]
  exact sum_row_eq (n := (B.blk I J).cols) (fun e he => by have := Csr.mem_row_ok (h.blk_wf I J) he; omega) (fun c => f (vecAt B.colOff J + c))

theorem foldlM_dot [NonUnitalNonAssocSemiring R] (x : List R) (l : List (Int × R)) (hl : ∀ e ∈ l, 0 ≤ e.1 ∧ e.1 < (x.length : Int)) (a : R) :
    l.foldlM (fun (val : R) e => do
      let v ← Rel.vrd .release x e.1
      (.ok (val + e.2 * v) : Res R)) a = .ok (a + (l.map (fun e => e.2 * vecAt x e.1)).sum) := by
  induction l generalizing a with
  | nil => simp
  | cons e l ih =>
    have he := hl e (by simp)
    rw [List.foldlM_cons, show Rel.vrd .release x e.1 = rd x e.1 from rfl, rd_vecAt x he.1 he.2, ok_bind, ok_bind,
      ih (fun e he => hl e (by simp [he])), List.map_cons, List.sum_cons, add_assoc]

/-- **C142.**  Without assertions `Mult` works exactly if the output has room for the rows, every block has the rows its place needs, and every stored column
is inside the input; the lengths and the sizes of the blocks may otherwise be anything.  A block that is too wide acts on the elements of the next block
column as well.  Otherwise it reaches past a vector. -/
theorem C142_mult [NonUnitalNonAssocSemiring R] (B : BlockMat R) (h : B.Layout) (x y : List R) :
    ((B.rows ≤ y.length ∧ ∀ I i, 0 ≤ I → I < B.nI → 0 ≤ i → i < vecAt B.rowOff (I + 1) - vecAt B.rowOff I → B.RowOk I i (· < (x.length : Int))) →
      ∃ y', Rel.blockMult .release B x y = .ok y' ∧ y'.length = y.length ∧
        (∀ I i, 0 ≤ I → I < B.nI → 0 ≤ i → i < vecAt B.rowOff (I + 1) - vecAt B.rowOff I → rd y' (vecAt B.rowOff I + i) =
          .ok (∑ J ∈ Finset.Ico 0 B.nJ, ∑ c ∈ Finset.Ico 0 (B.blk I J).cols, (B.blk I J).coef i c * vecAt x (vecAt B.colOff J + c))) ∧
        ∀ k, B.rows ≤ k → k < y.length → rd y' k = .ok 0) ∧
    (¬ (B.rows ≤ y.length ∧ ∀ I i, 0 ≤ I → I < B.nI → 0 ≤ i → i < vecAt B.rowOff (I + 1) - vecAt B.rowOff I → B.RowOk I i (· < (x.length : Int))) →
      Rel.blockMult .release B x y = .error .outOfBounds) := by
  have hrows := h.rowOff_ok.size_nonneg
  have hrun : Rel.blockMult .release B x y = forUp 0 B.rows (List.replicate y.length (0 : R)) (fun p s => do
      let val ← B.forEntries (BlockMat.blockOf B.rowOff p) (p - vecAt B.rowOff (BlockMat.blockOf B.rowOff p)) (0 : R) (fun col d val => do
        let v ← Rel.vrd .release x col
        .ok (val + d * v))
      Rel.vwr .release s p val) :=
    h.forRows_blockOf (List.replicate y.length (0 : R)) (fun i row l output => do
      let val ← B.forEntries i l (0 : R) (fun col d val => do
        let v ← Rel.vrd .release x col
        .ok (val + d * v))
      Rel.vwr .release output row val)
  rw [hrun]
  constructor
  · rintro ⟨hy, hok⟩
    have hseq := forUp_seq (n := B.rows) hrows (body := fun p s => do
      let val ← B.forEntries (BlockMat.blockOf B.rowOff p) (p - vecAt B.rowOff (BlockMat.blockOf B.rowOff p)) (0 : R) (fun col d val => do
        let v ← Rel.vrd .release x col
        .ok (val + d * v))
      Rel.vwr .release s p val)
      (fun p => vecFn y.length (fun k => if k < p then ((B.brow (BlockMat.blockOf B.rowOff k)
        (k - vecAt B.rowOff (BlockMat.blockOf B.rowOff k))).map (fun e => e.2 * vecAt x e.1)).sum else 0)) (by
        intro p p0 p1
        obtain ⟨I, i, hp, I0, I1, i0, i1, e1, e2⟩ := h.blockOf_ok p0 p1
        rw [e2, e1, h.forEntries_eq I0 I1 i0 (hok I i I0 I1 i0 i1), foldlM_dot x _ ((hok I i I0 I1 i0 i1).brow h), ok_bind, zero_add]
        show wr _ p _ = _
        rw [wr_vecFn _ p0 (by omega)]
        congr 1
        apply vecFn_congr
        intro k k0 k1
        by_cases hk : k = p
        · rw [if_pos hk, if_pos (by omega), hk, e2, e1]
        · rw [if_neg hk]
          by_cases hk' : k < p
          · rw [if_pos hk', if_pos (by omega)]
          · rw [if_neg hk', if_neg (by omega)])
    have h0 : List.replicate y.length (0 : R) = vecFn y.length (fun k => if k < 0 then ((B.brow (BlockMat.blockOf B.rowOff k)
        (k - vecAt B.rowOff (BlockMat.blockOf B.rowOff k))).map (fun e => e.2 * vecAt x e.1)).sum else 0) := by
      rw [replicate_vecFn]
      apply vecFn_congr
      intro k k0 _
      rw [if_neg (by omega)]
    rw [h0, hseq]
    refine ⟨_, rfl, by simp [vecFn], ?_, ?_⟩
    · intro I i I0 I1 i0 i1
      have hI1 := I1
      unfold BlockMat.nI at hI1
      have a := h.rowOff_ok.nonneg I0 (by omega)
      have b := h.rowOff_ok.le_last (show 0 ≤ I + 1 by omega) (by omega)
      rw [rd_vecFn (by omega) (by omega), if_pos (by omega), BlockMat.blockOf_eq h.rowOff_ok I0 hI1 i0 i1, sum_brow h,
        show vecAt B.rowOff I + i - vecAt B.rowOff I = i by omega]
    · intro k k0 k1
      rw [rd_vecFn (by omega) k1, if_neg (by omega)]
  · intro hno
    have hex : ∃ p, 0 ≤ p ∧ p < B.rows ∧ ¬ (p < (y.length : Int) ∧ B.RowOk (BlockMat.blockOf B.rowOff p)
        (p - vecAt B.rowOff (BlockMat.blockOf B.rowOff p)) (· < (x.length : Int))) := by
      by_contra hne
      push Not at hne
      apply hno
      refine ⟨?_, ?_⟩
      · by_contra hlt
        exact absurd (hne (y.length : Int) (by omega) (by omega)).1 (by omega)
      · intro I i I0 I1 i0 i1
        have hI1 := I1
        unfold BlockMat.nI at hI1
        have a := h.rowOff_ok.nonneg I0 (by omega)
        have b := h.rowOff_ok.le_last (show 0 ≤ I + 1 by omega) (by omega)
        have := (hne (vecAt B.rowOff I + i) (by omega) (by omega)).2
        rwa [BlockMat.blockOf_eq h.rowOff_ok I0 hI1 i0 i1, show vecAt B.rowOff I + i - vecAt B.rowOff I = i by omega] at this
    refine forUp_fails (fun _ (s : List R) => s.length = y.length) (fun p => p < (y.length : Int) ∧ B.RowOk (BlockMat.blockOf B.rowOff p)
        (p - vecAt B.rowOff (BlockMat.blockOf B.rowOff p)) (· < (x.length : Int))) .outOfBounds (by simp) ?_ ?_ hex
    · rintro p s p0 p1 hs ⟨hp, hok⟩
      obtain ⟨I, i, -, I0, I1, i0, i1, e1, e2⟩ := h.blockOf_ok p0 p1
      rw [e2, e1] at hok ⊢
      rw [h.forEntries_eq I0 I1 i0 hok, foldlM_dot x _ (hok.brow h), ok_bind]
      show ∃ s', wr s p _ = .ok s' ∧ _
      rw [wr_int p0 (by omega)]
      exact ⟨_, rfl, by simpa using hs⟩
    · intro p s p0 p1 hs hg
      obtain ⟨I, i, -, I0, I1, i0, i1, e1, e2⟩ := h.blockOf_ok p0 p1
      rw [e2, e1] at hg ⊢
      by_cases hok : B.RowOk I i (· < (x.length : Int))
      · rw [h.forEntries_eq I0 I1 i0 hok, foldlM_dot x _ (hok.brow h), ok_bind]
        show wr s p _ = _
        rw [wr_oob (by by_contra hlt; exact hg ⟨by omega, hok⟩)]
      · rw [h.forEntries_fails I0 I1 i0 (fun _ => True) (· < (x.length : Int)) trivial ?_ ?_ hok]
        · rfl
        · intro c d s c0 _ hc
          rw [show Rel.vrd .release x c = rd x c from rfl, rd_vecAt x c0 hc]
          exact ⟨_, rfl, trivial⟩
        · intro c d s c0 _ hc
          rw [show Rel.vrd .release x c = rd x c from rfl, rd_oob (by omega)]
          rfl

theorem sum_Ico_blocks {M : Type} [AddCommMonoid M] {off : List Int} {n : Int} (h : Offsets off n) (G : Int → M) :
    ∑ p ∈ Finset.Ico 0 n, G p
      = ∑ I ∈ Finset.Ico 0 ((off.length : Int) - 1), ∑ i ∈ Finset.Ico 0 (vecAt off (I + 1) - vecAt off I), G (vecAt off I + i) := by
  have hl := h.length_pos
  have key : ∀ K : Nat, (K : Int) ≤ (off.length : Int) - 1 → ∑ p ∈ Finset.Ico 0 (vecAt off K), G p
      = ∑ I ∈ Finset.Ico (0 : Int) K, ∑ i ∈ Finset.Ico 0 (vecAt off (I + 1) - vecAt off I), G (vecAt off I + i) := by
    intro K
    induction K with
    | zero => intro _; simp [h.at_zero]
    | succ K ih =>
      intro hK
      push_cast at hK ⊢
      rw [sum_Ico_succ _ (by omega), ← ih (by omega)]
      have h0 := h.nonneg (show (0 : Int) ≤ K by omega) (by omega)
      have h1 := h.le (show (0 : Int) ≤ K by omega) (show (K : Int) ≤ K + 1 by omega) (by omega)
      have e := sum_Ico_add G h0 (show 0 ≤ vecAt off (K + 1) - vecAt off K by omega)
      rwa [show vecAt off K + (vecAt off (K + 1) - vecAt off K) = vecAt off (K + 1) by omega] at e
  have := key (off.length - 1) (by omega)
  rwa [show ((off.length - 1 : Nat) : Int) = (off.length : Int) - 1 by omega, h.at_last] at this

theorem foldlM_addRow [NonUnitalNonAssocSemiring R] (x : List R) {p : Int} (p0 : 0 ≤ p) (l : List (Int × R)) (n : Nat)
    (hl : ∀ e ∈ l, 0 ≤ e.1 ∧ p < (x.length : Int) ∧ e.1 < (n : Int)) (F : Int → R) :
    l.foldlM (fun (out : List R) e => do
      let v ← Rel.vrd .release x p
      let old ← Rel.vrd .release out e.1
      Rel.vwr .release out e.1 (old + e.2 * v)) (vecFn n F) = .ok (vecFn n (fun k => F k + rowCoef l k * vecAt x p)) := by
  induction l generalizing F with
  | nil =>
    show Except.ok _ = _
    congr 1
    apply vecFn_congr
    intro k _ _
    simp
  | cons e l ih =>
    have he := hl e (by simp)
    have hstep : (do
        let v ← Rel.vrd .release x p
        let old ← Rel.vrd .release (vecFn n F) e.1
        Rel.vwr .release (vecFn n F) e.1 (old + e.2 * v)) = .ok (vecFn n (fun a => if a = e.1 then F e.1 + e.2 * vecAt x p else F a)) := by
      rw [show Rel.vrd .release x p = rd x p from rfl, rd_vecAt x p0 he.2.1, ok_bind,
        show Rel.vrd .release (vecFn n F) e.1 = rd (vecFn n F) e.1 from rfl, rd_vecFn he.1 he.2.2, ok_bind]
      exact wr_vecFn _ he.1 he.2.2
    rw [List.foldlM_cons, hstep, ok_bind, ih (fun e he => hl e (by simp [he]))]
    congr 1
    apply vecFn_congr
    intro k _ _
    rw [rowCoef_cons]
    by_cases hk : k = e.1
    · rw [if_pos hk, if_pos hk.symm, add_mul, ← add_assoc, hk]
    · rw [if_neg hk, if_neg (Ne.symm hk), zero_add]

theorem coef_brow' [NonUnitalNonAssocSemiring R] {B : BlockMat R} (h : B.Layout) (I i k : Int) :
    rowCoef (B.brow I i) k = ∑ J ∈ Finset.Ico 0 B.nJ, (B.blk I J).coef i (k - vecAt B.colOff J) := by
  have hlen := h.colOff_ok.length_pos
  unfold BlockMat.brow
  rw [rowCoef_flatMap, sum_iota, show ((B.nJ.toNat : Nat) : Int) = B.nJ by unfold BlockMat.nJ; omega]
  apply Finset.sum_congr rfl
  intro J _
  have := rowCoef_shift ((B.blk I J).row i) (vecAt B.colOff J) (k - vecAt B.colOff J)
  rw [show vecAt B.colOff J + (k - vecAt B.colOff J) = k by omega] at this
  rw [this]
  rfl

/-- **C142.**  Without assertions `MultAT` works exactly if every block has the rows its place needs and for every stored element the row is inside the input
and the column inside the output; then element `k` of the output is the sum over all blocks, whatever their sizes.  Otherwise it reaches past a vector. -/
theorem C142_multAT [NonUnitalNonAssocSemiring R] (B : BlockMat R) (h : B.Layout) (x y : List R) :
    ((∀ I i, 0 ≤ I → I < B.nI → 0 ≤ i → i < vecAt B.rowOff (I + 1) - vecAt B.rowOff I →
        B.RowOk I i (fun c => vecAt B.rowOff I + i < (x.length : Int) ∧ c < (y.length : Int))) →
      ∃ y', Rel.blockMultAT .release B x y = .ok y' ∧ VecIs y' y.length (fun k => ∑ I ∈ Finset.Ico 0 B.nI,
        ∑ i ∈ Finset.Ico 0 (vecAt B.rowOff (I + 1) - vecAt B.rowOff I),
          (∑ J ∈ Finset.Ico 0 B.nJ, (B.blk I J).coef i (k - vecAt B.colOff J)) * vecAt x (vecAt B.rowOff I + i))) ∧
    (¬ (∀ I i, 0 ≤ I → I < B.nI → 0 ≤ i → i < vecAt B.rowOff (I + 1) - vecAt B.rowOff I →
        B.RowOk I i (fun c => vecAt B.rowOff I + i < (x.length : Int) ∧ c < (y.length : Int))) →
      Rel.blockMultAT .release B x y = .error .outOfBounds) := by
  have hrows := h.rowOff_ok.size_nonneg
  have hrun : Rel.blockMultAT .release B x y = forUp 0 B.rows (List.replicate y.length (0 : R)) (fun p s =>
      B.forEntries (BlockMat.blockOf B.rowOff p) (p - vecAt B.rowOff (BlockMat.blockOf B.rowOff p)) s (fun col d output => do
        let v ← Rel.vrd .release x p
        let old ← Rel.vrd .release output col
        Rel.vwr .release output col (old + d * v))) :=
    h.forRows_blockOf (List.replicate y.length (0 : R)) (fun i row l output =>
      B.forEntries i l output (fun col d output => do
        let v ← Rel.vrd .release x row
        let old ← Rel.vrd .release output col
        Rel.vwr .release output col (old + d * v)))
  rw [hrun]
  constructor
  · intro hok
    have hseq := forUp_seq (n := B.rows) hrows (body := fun p s =>
      B.forEntries (BlockMat.blockOf B.rowOff p) (p - vecAt B.rowOff (BlockMat.blockOf B.rowOff p)) s (fun col d output => do
        let v ← Rel.vrd .release x p
        let old ← Rel.vrd .release output col
        Rel.vwr .release output col (old + d * v)))
      (fun p => vecFn y.length (fun k => ∑ q ∈ Finset.Ico 0 p, rowCoef (B.brow (BlockMat.blockOf B.rowOff q)
        (q - vecAt B.rowOff (BlockMat.blockOf B.rowOff q))) k * vecAt x q)) (by
        intro p p0 p1
        obtain ⟨I, i, hp, I0, I1, i0, i1, e1, e2⟩ := h.blockOf_ok p0 p1
        rw [e2, e1, h.forEntries_eq I0 I1 i0 (hok I i I0 I1 i0 i1), foldlM_addRow x p0 _ _ (fun e he => by
          have := (hok I i I0 I1 i0 i1).brow h e he
          omega)]
        congr 1
        apply vecFn_congr
        intro k k0 k1
        rw [sum_Ico_succ _ p0, e2, e1])
    have h0 : List.replicate y.length (0 : R) = vecFn y.length (fun k => ∑ q ∈ Finset.Ico (0 : Int) 0, rowCoef (B.brow (BlockMat.blockOf B.rowOff q)
        (q - vecAt B.rowOff (BlockMat.blockOf B.rowOff q))) k * vecAt x q) := by
      rw [replicate_vecFn]
      apply vecFn_congr
      intro k k0 _
      simp
    rw [h0, hseq]
    refine ⟨_, rfl, ?_⟩
    have : vecFn y.length (fun k => ∑ q ∈ Finset.Ico 0 B.rows, rowCoef (B.brow (BlockMat.blockOf B.rowOff q)
        (q - vecAt B.rowOff (BlockMat.blockOf B.rowOff q))) k * vecAt x q) = vecFn y.length (fun k => ∑ I ∈ Finset.Ico 0 B.nI,
        ∑ i ∈ Finset.Ico 0 (vecAt B.rowOff (I + 1) - vecAt B.rowOff I),
          (∑ J ∈ Finset.Ico 0 B.nJ, (B.blk I J).coef i (k - vecAt B.colOff J)) * vecAt x (vecAt B.rowOff I + i)) := by
      apply vecFn_congr
      intro k _ _
      rw [sum_Ico_blocks h.rowOff_ok]
      apply Finset.sum_congr rfl
      intro I hI
      have hI := Finset.mem_Ico.mp hI
      apply Finset.sum_congr rfl
      intro i hi
      have hi := Finset.mem_Ico.mp hi
      rw [BlockMat.blockOf_eq h.rowOff_ok hI.1 hI.2 hi.1 hi.2, show vecAt B.rowOff I + i - vecAt B.rowOff I = i by omega, coef_brow' h]
    rw [this]
    exact is_vecFn _ _
  · intro hno
    have hex : ∃ p, 0 ≤ p ∧ p < B.rows ∧ ¬ B.RowOk (BlockMat.blockOf B.rowOff p)
        (p - vecAt B.rowOff (BlockMat.blockOf B.rowOff p)) (fun c => p < (x.length : Int) ∧ c < (y.length : Int)) := by
      by_contra hne
      push Not at hne
      apply hno
      intro I i I0 I1 i0 i1
      have hI1 := I1
      unfold BlockMat.nI at hI1
      have a := h.rowOff_ok.nonneg I0 (by omega)
      have b := h.rowOff_ok.le_last (show 0 ≤ I + 1 by omega) (by omega)
      have := hne (vecAt B.rowOff I + i) (by omega) (by omega)
      rwa [BlockMat.blockOf_eq h.rowOff_ok I0 hI1 i0 i1, show vecAt B.rowOff I + i - vecAt B.rowOff I = i by omega] at this
    have hgood : ∀ (p c : Int) (d : R) (s : List R), 0 ≤ p → 0 ≤ c → s.length = y.length → p < (x.length : Int) ∧ c < (y.length : Int) →
        ∃ s', (do
          let v ← Rel.vrd .release x p
          let old ← Rel.vrd .release s c
          Rel.vwr .release s c (old + d * v)) = .ok s' ∧ s'.length = y.length := by
      intro p c d s p0 c0 hs hc
      rw [show Rel.vrd .release x p = rd x p from rfl, rd_vecAt x p0 hc.1, ok_bind, show Rel.vrd .release s c = rd s c from rfl,
        rd_int c0 (by omega), ok_bind]
      show ∃ s', wr s c _ = .ok s' ∧ _
      rw [wr_int c0 (by omega)]
      exact ⟨_, rfl, by simpa using hs⟩
    refine forUp_fails (fun _ (s : List R) => s.length = y.length) (fun p => B.RowOk (BlockMat.blockOf B.rowOff p)
        (p - vecAt B.rowOff (BlockMat.blockOf B.rowOff p)) (fun c => p < (x.length : Int) ∧ c < (y.length : Int))) .outOfBounds (by simp) ?_ ?_ hex
    · intro p s p0 p1 hs hok
      obtain ⟨I, i, -, I0, I1, i0, i1, e1, e2⟩ := h.blockOf_ok p0 p1
      rw [e2, e1] at hok ⊢
      rw [h.forEntries_eq I0 I1 i0 hok]
      exact foldlM_keep (fun (s : List R) => s.length = y.length) hs fun s e he hs =>
        hgood p e.1 e.2 s p0 (hok.brow h e he).1 hs (hok.brow h e he).2
    · intro p s p0 p1 hs hg
      obtain ⟨I, i, -, I0, I1, i0, i1, e1, e2⟩ := h.blockOf_ok p0 p1
      rw [e2, e1] at hg ⊢
      refine h.forEntries_fails I0 I1 i0 (fun (s : List R) => s.length = y.length) _ hs
        (fun c d s c0 hs hc => hgood p c d s p0 c0 hs hc) ?_ hg
      intro c d s c0 hs hc
      by_cases hp : p < (x.length : Int)
      · rw [show Rel.vrd .release x p = rd x p from rfl, rd_vecAt x p0 hp, ok_bind, show Rel.vrd .release s c = rd s c from rfl,
          rd_oob (by omega)]
        rfl
      · rw [show Rel.vrd .release x p = rd x p from rfl, rd_oob (by omega)]
        rfl

/-! ## Combine -/

theorem forUp_stops {a b : Int} {f : Int → σ → Res σ} (I : σ → Prop) (e : Err) {s : σ} (h0 : I s)
    (hstep : ∀ i s, a ≤ i → i < b → I s → f i s = .error e ∨ ∃ s', f i s = .ok s' ∧ I s')
    (hex : ∃ k, a ≤ k ∧ k < b ∧ ∀ s, I s → f k s = .error e) : forUp a b s f = .error e := by
  obtain ⟨k, k0, k1, hk⟩ := hex
  obtain ⟨n, hn⟩ : ∃ n : Nat, k = a + n := ⟨(k - a).toNat, by omega⟩
  induction n generalizing a s with
  | zero =>
    obtain rfl : k = a := by omega
    rw [forUp_cons (by omega), hk s h0]
    rfl
  | succ n ih =>
    rw [forUp_cons (by omega)]
    rcases hstep a s le_rfl (by omega) h0 with he | ⟨s', h1, h2⟩
    · rw [he]; rfl
    · rw [h1, ok_bind]
      exact ih h2 (fun i s i0 i1 => hstep i s (by omega) i1) (by omega) (by omega)

theorem forUp_either {a b : Int} {f : Int → σ → Res σ} (I : σ → Prop) (e : Err) {s : σ} (h0 : I s)
    (hstep : ∀ i s, a ≤ i → i < b → I s → f i s = .error e ∨ ∃ s', f i s = .ok s' ∧ I s') :
    forUp a b s f = .error e ∨ ∃ s', forUp a b s f = .ok s' ∧ I s' := by
  by_cases hab : a ≤ b
  · obtain ⟨n, hn⟩ : ∃ n : Nat, b = a + n := ⟨(b - a).toNat, by omega⟩
    induction n generalizing a s with
    | zero => rw [forUp_nil (by omega)]; exact Or.inr ⟨s, rfl, h0⟩
    | succ n ih =>
      rw [forUp_cons (by omega)]
      rcases hstep a s le_rfl (by omega) h0 with he | ⟨s', h1, h2⟩
      · rw [he]; exact Or.inl rfl
      · rw [h1, ok_bind]
        exact ih h2 (fun i s i0 i1 => hstep i s (by omega) i1) (by omega) (by omega)
  · rw [forUp_nil (by omega)]; exact Or.inr ⟨s, rfl, h0⟩

theorem foldlM_either {l : List β} {f : σ → β → Res σ} (I : σ → Prop) (e : Err) {s : σ} (h0 : I s)
    (hstep : ∀ s, ∀ b ∈ l, I s → f s b = .error e ∨ ∃ s', f s b = .ok s' ∧ I s') :
    l.foldlM f s = .error e ∨ ∃ s', l.foldlM f s = .ok s' ∧ I s' := by
  induction l generalizing s with
  | nil => exact Or.inr ⟨s, rfl, h0⟩
  | cons b l ih =>
    rw [List.foldlM_cons]
    rcases hstep s b (by simp) h0 with he | ⟨s', h1, h2⟩
    · rw [he]; exact Or.inl rfl
    · rw [h1, ok_bind]
      exact ih h2 fun s c hc => hstep s c (by simp [hc])

theorem BlockMat.Layout.forEntries_either {B : BlockMat α} (h : B.Layout) {i l : Int} (i0 : 0 ≤ i) (i1 : i < B.nI) (l0 : 0 ≤ l) (I : σ → Prop)
    {s : σ} (hs : I s) {body : Int → α → σ → Res σ} (hb : ∀ c d s, I s → body c d s = .error .outOfBounds ∨ ∃ s', body c d s = .ok s' ∧ I s') :
    (B.forEntries i l s body = .error .outOfBounds ∨ ∃ s', B.forEntries i l s body = .ok s' ∧ I s') ∧
    (¬ B.RowOk i l (fun _ => True) → B.forEntries i l s body = .error .outOfBounds) := by
  have hlen := h.colOff_ok.length_pos
  have hstep : ∀ (j : Int) (s : σ), 0 ≤ j → j < (B.colOff.length : Int) - 1 → I s → ∀ r, r = (do
      let mat ← B.at' i j
      if mat.rows = 0 ∨ mat.cols = 0 then .ok s
      else do
        let offset ← rd B.colOff j
        mat.forRow l s (fun jj s => do
          let c ← rd mat.indices jj
          let d ← rd mat.data jj
          body (offset + c) d s)) →
      (r = .error .outOfBounds ∨ ∃ s', r = .ok s' ∧ I s') ∧
      (¬ (((B.blk i j).rows = 0 ∨ (B.blk i j).cols = 0) ∨ l < (B.blk i j).rows) → r = .error .outOfBounds) := by
    intro j s j0 j1 hI r hr
    have hw := h.blk_wf i j
    rw [h.at_eq i0 i1 j0 (by unfold nJ; exact j1), ok_bind] at hr
    by_cases hz : (B.blk i j).rows = 0 ∨ (B.blk i j).cols = 0
    · rw [if_pos hz] at hr
      exact ⟨Or.inr ⟨s, hr, hI⟩, fun hn => absurd (Or.inl hz) hn⟩
    · rw [if_neg hz, rd_vecAt B.colOff j0 (by omega), ok_bind] at hr
      by_cases hl : l < (B.blk i j).rows
      · rw [hw.forRow_eq l0 hl s (fun c d s => body (vecAt B.colOff j + c) d s)] at hr
        refine ⟨?_, fun hn => absurd (Or.inr hl) hn⟩
        rw [hr]
        exact foldlM_either I _ hI fun s e _ hI => hb _ _ _ hI
      · obtain ⟨n, rs, hn, hrs, hrs'⟩ := hw.exists_rows
        rw [hrs'] at hl hr
        rw [forRow_oob (Or.inr (by simpa [Csr.ofRows] using hl))] at hr
        exact ⟨Or.inl hr, fun _ => hr⟩
  refine ⟨forUp_either I _ hs fun j s j0 j1 hI => (hstep j s j0 j1 hI _ rfl).1, ?_⟩
  intro hno
  unfold BlockMat.RowOk at hno
  simp only [not_forall] at hno
  obtain ⟨j, j0, j1, hj⟩ := hno
  refine forUp_stops I _ hs (fun j s j0 j1 hI => (hstep j s j0 j1 hI _ rfl).1) ⟨j, j0, j1, fun s hI => (hstep j s j0 j1 hI _ rfl).2 ?_⟩
  simpa using hj

/-- The first rows of a matrix hold all its elements exactly if the other rows are empty. -/
theorem Csr.WF.first_rows {A : Csr α} (h : A.WF) (H : Nat) :
    ∑ l ∈ Finset.range H, (A.row (l : Int)).length ≤ A.data.length ∧
    (∑ l ∈ Finset.range H, (A.row (l : Int)).length = A.data.length ↔ ∀ i : Int, (H : Int) ≤ i → A.row i = []) := by
  have hr := h.rows_nonneg
  have hge : ∀ i : Int, A.rows ≤ i → A.row i = [] := fun i hi => Csr.row_ge A h.indptr_len hi
  have e : A.data.length = ∑ l ∈ Finset.range (H + A.rows.toNat), (A.row (l : Int)).length := by
    rw [h.nnz_eq, Finset.sum_range_list, Nat.add_comm H, Finset.sum_range_add]
    rw [Finset.sum_eq_zero (s := Finset.range H), add_zero]
    intro l _
    rw [hge _ (by omega)]; rfl
  rw [e, Finset.sum_range_add]
  refine ⟨Nat.le_add_right _ _, ?_⟩
  constructor
  · intro hs i hi
    have h0 : ∑ l ∈ Finset.range A.rows.toNat, (A.row ((H + l : Nat) : Int)).length = 0 := by omega
    rw [Finset.sum_eq_zero_iff] at h0
    by_cases hi' : A.rows ≤ i
    · exact hge i hi'
    · have := h0 (i - H).toNat (Finset.mem_range.mpr (by omega))
      rw [show (((H + (i - H).toNat : Nat)) : Int) = i by omega] at this
      exact List.length_eq_zero_iff.mp this
  · intro hrow
    rw [Finset.sum_eq_zero (s := Finset.range A.rows.toNat), add_zero]
    intro l _
    rw [hrow _ (by omega)]; rfl

theorem BlockMat.Layout.nnz_sums {B : BlockMat α} (h : B.Layout) :
    B.nnzTotal = ((∑ i ∈ Finset.range (B.rowOff.length - 1), ∑ j ∈ Finset.range (B.colOff.length - 1), (B.blk i j).data.length : Nat) : Int) ∧
    B.rowsL.flatten.length = ∑ i ∈ Finset.range (B.rowOff.length - 1), ∑ j ∈ Finset.range (B.colOff.length - 1),
      ∑ l ∈ Finset.range (vecAt B.rowOff ((i : Nat) + 1 : Int) - vecAt B.rowOff i).toNat, ((B.blk i j).row (l : Int)).length := by
  have hr := h.rowOff_ok.length_pos
  have hc := h.colOff_ok.length_pos
  have hrows := h.rowOff_ok.size_nonneg
  constructor
  · rw [nnzTotal_eq]
    congr 1
    rw [list_sum_range_getD B.blocks [], h.blocks_len]
    apply Finset.sum_congr rfl
    intro i hi
    have hi := Finset.mem_range.mp hi
    have hlt : i < B.blocks.length := by rw [h.blocks_len]; exact hi
    have hb : ∀ j : Nat, (B.blocks.getD i []).getD j Csr.empty = B.blk i j := by
      intro j
      unfold blk
      rw [if_pos ⟨by omega, by omega⟩]
      rfl
    have hlen : (B.blocks.getD i []).length = B.colOff.length - 1 := by
      rw [List.getD_eq_getElem?_getD, List.getElem?_eq_getElem hlt]
      exact h.block_row_len _ (List.getElem_mem hlt)
    rw [list_sum_range_getD _ Csr.empty, hlen]
    simp only [hb]
  · rw [List.length_flatten, list_sum_range_getD B.rowsL [], length_rowsL]
    have e1 : B.rows.toNat = (vecAt B.rowOff ((B.rowOff.length - 1 : Nat) : Int)).toNat := by
      rw [show ((B.rowOff.length - 1 : Nat) : Int) = (B.rowOff.length : Int) - 1 by omega, h.rowOff_ok.at_last]
    rw [e1, sum_range_blocks h.rowOff_ok _ _ le_rfl]
    apply Finset.sum_congr rfl
    intro i hi
    have hi := Finset.mem_range.mp hi
    have i0 : (0 : Int) ≤ i := by omega
    have i1 : (i : Int) < B.nI := by unfold nI; omega
    rw [Finset.sum_comm]
    apply Finset.sum_congr rfl
    intro l hl
    have hl := Finset.mem_range.mp hl
    have h0 := h.rowOff_ok.nonneg i0 (by omega)
    rw [show (vecAt B.rowOff i).toNat + l = (vecAt B.rowOff i + (l : Int)).toNat by omega,
      h.rowsL_getD i0 i1 (by omega) (by omega), brow, List.length_flatMap]
    simp only [List.length_map, iota, List.map_map]
    rw [show B.nJ.toNat = B.colOff.length - 1 by unfold nJ; omega]
    exact Finset.sum_range_list _ _

/-- The rows inside the layout hold all elements of all blocks exactly if the rows of the blocks outside the layout are empty. -/
theorem BlockMat.Layout.nnz_le {B : BlockMat α} (h : B.Layout) :
    (B.rowsL.flatten.length : Int) ≤ B.nnzTotal ∧
    ((B.rowsL.flatten.length : Int) = B.nnzTotal ↔ ∀ I J i, 0 ≤ I → I < B.nI → 0 ≤ J → J < B.nJ →
      vecAt B.rowOff (I + 1) - vecAt B.rowOff I ≤ i → (B.blk I J).row i = []) := by
  have hr := h.rowOff_ok.length_pos
  have hc := h.colOff_ok.length_pos
  rw [h.nnz_sums.1, h.nnz_sums.2]
  have hle : ∀ i ∈ Finset.range (B.rowOff.length - 1), ∀ j ∈ Finset.range (B.colOff.length - 1),
      ∑ l ∈ Finset.range (vecAt B.rowOff ((i : Nat) + 1 : Int) - vecAt B.rowOff i).toNat, ((B.blk i j).row (l : Int)).length
        ≤ (B.blk i j).data.length := fun i _ j _ => ((h.blk_wf i j).first_rows _).1
  refine ⟨by exact_mod_cast Finset.sum_le_sum fun i hi => Finset.sum_le_sum fun j hj => hle i hi j hj, ?_⟩
  rw [Nat.cast_inj, Finset.sum_eq_sum_iff_of_le (fun i hi => Finset.sum_le_sum fun j hj => hle i hi j hj)]
  constructor
  · intro hs I J i I0 I1 J0 J1 hi
    unfold nI at I1
    unfold nJ at J1
    have hI : I.toNat ∈ Finset.range (B.rowOff.length - 1) := Finset.mem_range.mpr (by omega)
    have hJ : J.toNat ∈ Finset.range (B.colOff.length - 1) := Finset.mem_range.mpr (by omega)
    have := hs _ hI
    rw [Finset.sum_eq_sum_iff_of_le (fun j hj => hle _ hI j hj)] at this
    have := this _ hJ
    rw [show ((I.toNat : Nat) : Int) = I by omega, show ((J.toNat : Nat) : Int) = J by omega] at this
    have hh := h.rowOff_ok.le I0 (show I ≤ I + 1 by omega) (by omega)
    exact ((h.blk_wf I J).first_rows _).2.mp this i (by omega)
  · intro hs i hi
    apply Finset.sum_congr rfl
    intro j hj
    have hi := Finset.mem_range.mp hi
    have hj := Finset.mem_range.mp hj
    have hh := h.rowOff_ok.le (show (0 : Int) ≤ i by omega) (show (i : Int) ≤ i + 1 by omega) (by omega)
    exact ((h.blk_wf i j).first_rows _).2.mpr fun l hl =>
      hs i j l (by omega) (by unfold nI; omega) (by omega) (by unfold nJ; omega) (by omega)

theorem Csr.row_padded [Zero α] (rows cols : Int) (rs : List (List (Int × α))) {N : Nat} (hN : rs.flatten.length ≤ N) (k : Nat) (hk : k < rs.length) :
    (⟨rows, cols, ptrs rs, padTo N 0 (rs.flatten.map Prod.fst), padTo N 0 (rs.flatten.map Prod.snd)⟩ : Csr α).row (k : Int) = rs[k] := by
  unfold Csr.row
  simp only [rd_ptrs rs k hk.le, rd_ptrs_succ rs k hk]
  have e1 : ((((rs.take k).flatten.length : Nat) : Int)).toNat = (rs.take k).flatten.length := Int.toNat_natCast _
  have e2 : ((((rs.take k).flatten.length + rs[k].length : Nat) : Int)
      - (((rs.take k).flatten.length : Nat) : Int)).toNat = rs[k].length := by omega
  have e3 : rs.flatten = (rs.take k).flatten ++ (rs[k] ++ (rs.drop (k + 1)).flatten) := by
    conv_lhs => rw [← List.take_append_drop k rs, List.flatten_append, List.drop_eq_getElem_cons hk, List.flatten_cons]
  rw [e1, e2]
  unfold padTo
  rw [List.length_map, List.length_map, List.zip_append (by rw [List.length_map, List.length_map]), zip_map_fst_snd, e3, List.append_assoc, List.append_assoc, List.drop_left,
    List.take_left]

theorem getLast_ptrs (rs : List (List β)) : (ptrs rs).getLast? = some (rs.flatten.length : Int) := by
  rw [List.getLast?_eq_getElem?, List.getElem?_eq_getElem (by simp), getElem_ptrs]
  simp [-List.length_flatten]

theorem wr_either (v : List α) (i : Int) (x : α) : wr v i x = .error .outOfBounds ∨ ∃ v', wr v i x = .ok v' := by
  by_cases h : 0 ≤ i ∧ i < v.length
  · exact Or.inr ⟨_, wr_int h.1 h.2⟩
  · exact Or.inl (wr_oob (by omega))

/-- What `Combine` stores: the rows inside the layout, then zeros for the elements of the rows outside. -/
theorem Rel.blockCombine_eq [Zero α] {B : BlockMat α} (h : B.Layout)
    (hok : ∀ I i, 0 ≤ I → I < B.nI → 0 ≤ i → i < vecAt B.rowOff (I + 1) - vecAt B.rowOff I → B.RowOk I i (fun _ => True)) :
    Rel.blockCombine .release B = .ok ⟨B.rows, B.cols, ptrs B.rowsL, padTo B.nnzTotal.toNat 0 (B.rowsL.flatten.map Prod.fst),
      padTo B.nnzTotal.toNat 0 (B.rowsL.flatten.map Prod.snd)⟩ := by
  have hrows := h.rowOff_ok.size_nonneg
  have hnnz := h.nnz_le.1
  obtain ⟨N, hN⟩ : ∃ N : Nat, B.nnzTotal = N := ⟨B.nnzTotal.toNat, by omega⟩
  rw [hN] at hnnz
  unfold Rel.blockCombine
  simp only
  rw [hN, mkVec_int (by omega), ok_bind, mkVec_nat, ok_bind, mkVec_nat, ok_bind, Int.toNat_natCast]
  have e1 : (B.rows + 1).toNat = B.rowsL.length + 1 := by rw [BlockMat.length_rowsL]; omega
  rw [e1, show (0 : Int) = ((0 : Nat) : Int) by rfl, wr_nat (by simp)]
  rw [ok_bind]
  have hinit : (List.replicate (B.rowsL.length + 1) ((0 : Nat) : Int)).set 0 ((0 : Nat) : Int)
      = padTo (B.rowsL.length + 1) 0 (ptrs (B.rowsL.take 0)) := by
    rw [List.take_zero, ← ptrs_zero_pad (β := Int × α) _ (by omega)]
    simp [List.replicate_succ]
  rw [hinit]
  have hl := h.forRows_eq
    (padTo (B.rowsL.length + 1) 0 (ptrs (B.rowsL.take 0)), ((0 : Nat) : Int), List.replicate N ((0 : Nat) : Int), List.replicate N (0 : α))
    (fun i row l st => do
      let out ← B.forEntries i l st.2 (fun col d (out : Int × List Int × List α) => do
        let ind ← wr out.2.1 out.1 col
        let dat ← wr out.2.2 out.1 d
        .ok (out.1 + 1, ind, dat))
      let indptr ← wr st.1 (row + 1) out.1
      (.ok (indptr, out) : Res (List Int × Int × List Int × List α)))
    (fun row st => do
      let o ← (B.rowsL.getD row.toNat []).foldlM (fun (out : Int × List Int × List α) e => do
        let ind ← wr out.2.1 out.1 e.1
        let dat ← wr out.2.2 out.1 e.2
        .ok (out.1 + 1, ind, dat)) st.2
      let indptr ← wr st.1 (row + 1) o.1
      .ok (indptr, o)) (by
      intro i l s i0 i1 l0 l1
      rw [h.forEntries_eq i0 i1 l0 (hok i l i0 i1 l0 l1), h.rowsL_getD i0 i1 l0 l1])
  refine (congrArg (fun z => z >>= _) hl).trans ?_
  have hseq := forUp_seq (n := (B.rowsL.length : Int)) (by omega)
    (S := fun k : Int => ((padTo (B.rowsL.length + 1) 0 (ptrs (B.rowsL.take k.toNat)),
      (((B.rowsL.take k.toNat).flatten.length : Nat) : Int),
      padTo N 0 ((B.rowsL.take k.toNat).flatten.map Prod.fst),
      padTo N 0 ((B.rowsL.take k.toNat).flatten.map Prod.snd)) :
        List Int × Int × List Int × List α))
    (body := fun row st => do
        let o ← (B.rowsL.getD row.toNat []).foldlM (fun (out : Int × List Int × List α) e => do
          let ind ← wr out.2.1 out.1 e.1
          let dat ← wr out.2.2 out.1 e.2
          .ok (out.1 + 1, ind, dat)) st.2
        let indptr ← wr st.1 (row + 1) o.1
        .ok (indptr, o)) (by
      intro j j0 j1
      obtain ⟨k, rfl⟩ := Int.eq_ofNat_of_zero_le j0
      have hk : k < B.rowsL.length := by omega
      simp only [Int.toNat_natCast, show ((k : Int) + 1).toNat = k + 1 by omega]
      have hg : B.rowsL.getD k [] = B.rowsL[k] := by
        rw [List.getD_eq_getElem?_getD, List.getElem?_eq_getElem hk]; rfl
      have ht : B.rowsL.take (k + 1) = B.rowsL.take k ++ [B.rowsL[k]] := take_succ_eq hk
      have hf : (B.rowsL.take (k + 1)).flatten = (B.rowsL.take k).flatten ++ B.rowsL[k] := by
        rw [ht, List.flatten_append]; simp
      have hlen : (B.rowsL.take k).flatten.length + B.rowsL[k].length ≤ N := by
        have : B.rowsL.flatten = (B.rowsL.take (k + 1)).flatten ++ (B.rowsL.drop (k + 1)).flatten := by
          rw [← List.flatten_append, List.take_append_drop]
        rw [this, hf] at hnnz
        simp only [List.length_append] at hnnz
        omega
      rw [hg, fillPairs _ _ hlen, ok_bind]
      simp only
      rw [← hf, wr_ptrs B.rowsL hk (by omega), ok_bind])
  rw [show B.rows = (B.rowsL.length : Int) by rw [BlockMat.length_rowsL]; omega]
  have hS0 : (padTo (B.rowsL.length + 1) 0 (ptrs (B.rowsL.take 0)), ((0 : Nat) : Int), List.replicate N ((0 : Nat) : Int), List.replicate N (0 : α))
      = ((padTo (B.rowsL.length + 1) 0 (ptrs (B.rowsL.take (0 : Int).toNat)),
      (((B.rowsL.take (0 : Int).toNat).flatten.length : Nat) : Int),
      padTo N 0 ((B.rowsL.take (0 : Int).toNat).flatten.map Prod.fst),
      padTo N 0 ((B.rowsL.take (0 : Int).toNat).flatten.map Prod.snd)) :
        List Int × Int × List Int × List α) := by
    simp [padTo]
  rw [hS0]
  refine (congrArg (fun z => z >>= _) hseq).trans ?_
  rw [ok_bind]
  simp only [Int.toNat_natCast, List.take_length]
  rw [padTo_full (by simp)]
  unfold Rel.ofArrays
  simp only [Build.assert, Build.firstPtr, ok_bind]
  split <;> rfl

/-- **C142.**  Without assertions `Combine` returns exactly if every block has the rows its place needs.  Every row of the result inside the layout is the sum of
the shifted rows of the blocks.  The result is a well-formed matrix exactly if in addition no block reaches past the last column and no block stores an element
in a row outside the layout. -/
theorem C142_combine [NonUnitalNonAssocSemiring R] (B : BlockMat R) (h : B.Layout) :
    ((∀ I i, 0 ≤ I → I < B.nI → 0 ≤ i → i < vecAt B.rowOff (I + 1) - vecAt B.rowOff I → B.RowOk I i (fun _ => True)) →
      ∃ C, Rel.blockCombine .release B = .ok C ∧ C.rows = B.rows ∧ C.cols = B.cols ∧ C.nnz = B.nnzTotal ∧
        (∀ I i k, 0 ≤ I → I < B.nI → 0 ≤ i → i < vecAt B.rowOff (I + 1) - vecAt B.rowOff I →
          C.coef (vecAt B.rowOff I + i) k = ∑ J ∈ Finset.Ico 0 B.nJ, (B.blk I J).coef i (k - vecAt B.colOff J)) ∧
        (C.WF ↔ (∀ I i, 0 ≤ I → I < B.nI → 0 ≤ i → i < vecAt B.rowOff (I + 1) - vecAt B.rowOff I → B.RowOk I i (· < B.cols)) ∧
          ∀ I J i, 0 ≤ I → I < B.nI → 0 ≤ J → J < B.nJ → vecAt B.rowOff (I + 1) - vecAt B.rowOff I ≤ i → (B.blk I J).row i = [])) ∧
    (¬ (∀ I i, 0 ≤ I → I < B.nI → 0 ≤ i → i < vecAt B.rowOff (I + 1) - vecAt B.rowOff I → B.RowOk I i (fun _ => True)) →
      Rel.blockCombine .release B = .error .outOfBounds) := by
  have hrows := h.rowOff_ok.size_nonneg
  have hcols := h.colOff_ok.size_nonneg
  have hnnz := h.nnz_le.1
  constructor
  · intro hok
    have hrow : ∀ I i, 0 ≤ I → I < B.nI → 0 ≤ i → i < vecAt B.rowOff (I + 1) - vecAt B.rowOff I →
        (⟨B.rows, B.cols, ptrs B.rowsL, padTo B.nnzTotal.toNat 0 (B.rowsL.flatten.map Prod.fst),
          padTo B.nnzTotal.toNat 0 (B.rowsL.flatten.map Prod.snd)⟩ : Csr R).row (vecAt B.rowOff I + i) = B.brow I i := by
      intro I i I0 I1 i0 i1
      have hI1 := I1
      unfold BlockMat.nI at hI1
      have a := h.rowOff_ok.nonneg I0 (by omega)
      have b := h.rowOff_ok.le_last (show 0 ≤ I + 1 by omega) (by omega)
      have hk : (vecAt B.rowOff I + i).toNat < B.rowsL.length := by rw [BlockMat.length_rowsL]; omega
      have e2 := h.rowsL_getD I0 I1 i0 i1
      rw [List.getD_eq_getElem?_getD, List.getElem?_eq_getElem hk] at e2
      simp only [Option.getD_some] at e2

      have e3 := Csr.row_padded B.rows B.cols B.rowsL (show B.rowsL.flatten.length ≤ B.nnzTotal.toNat by omega) (vecAt B.rowOff I + i).toNat hk
      rw [show (((vecAt B.rowOff I + i).toNat : Nat) : Int) = vecAt B.rowOff I + i by omega, e2] at e3
      exact e3
    refine ⟨_, Rel.blockCombine_eq h hok, rfl, rfl, ?_, ?_, ?_⟩
    · show ((padTo B.nnzTotal.toNat (0 : R) (B.rowsL.flatten.map Prod.snd)).length : Int) = _
      rw [length_padTo (by rw [List.length_map]; omega)]
      omega
    · intro I i k I0 I1 i0 i1
      unfold Csr.coef
      rw [hrow I i I0 I1 i0 i1]
      exact coef_brow' h I i k
    · constructor
      · intro hW
        have hN : (B.rowsL.flatten.length : Int) = B.nnzTotal := by
          have := hW.indptr_last
          simp only at this
          rw [getLast_ptrs, length_padTo (by rw [List.length_map]; omega)] at this
          have := Option.some.inj this
          omega
        refine ⟨?_, h.nnz_le.2.mp hN⟩
        intro I i I0 I1 i0 i1 J J0 J1
        rcases hok I i I0 I1 i0 i1 J J0 J1 with hz | ⟨hr, -⟩
        · exact Or.inl hz
        · refine Or.inr ⟨hr, fun e he => ?_⟩
          have hmem : ((vecAt B.colOff J + e.1, e.2) : Int × R) ∈ B.brow I i :=
            List.mem_flatMap.mpr ⟨J, mem_iota.mpr ⟨J0, by omega⟩, List.mem_map.mpr ⟨e, he, rfl⟩⟩
          rw [← hrow I i I0 I1 i0 i1] at hmem
          have := Csr.mem_row_ok hW hmem
          simp only at this ⊢
          omega
      · rintro ⟨hc, hz⟩
        have hN := h.nnz_le.2.mpr hz
        rw [← hN, Int.toNat_natCast, padTo_full (List.length_map _), padTo_full (List.length_map _)]
        have hw : (Csr.ofRows B.cols B.rowsL).WF := by
          apply Csr.wf_ofRows hcols
          intro r hr
          obtain ⟨k, hk, rfl⟩ := List.getElem_of_mem hr
          rw [BlockMat.length_rowsL] at hk
          obtain ⟨i, i0, i1, a, b⟩ := h.rowOff_ok.locate (show (0 : Int) ≤ k by omega) (show (k : Int) < B.rows by omega)
          have := h.rowsL_getD i0 i1 (show 0 ≤ (k : Int) - vecAt B.rowOff i by omega) (by omega)
          rw [show (vecAt B.rowOff i + ((k : Int) - vecAt B.rowOff i)).toNat = k by omega, List.getD_eq_getElem?_getD,
            List.getElem?_eq_getElem (by rw [BlockMat.length_rowsL]; omega)] at this
          simp only [Option.getD_some] at this
          rw [this]
          exact (hc i _ i0 i1 (by omega) (by omega)).brow h
        rw [show B.rows = (B.rowsL.length : Int) by rw [BlockMat.length_rowsL]; omega]
        exact hw
  · intro hno
    have hlen : (0 : Int) ≤ B.rows + 1 := by omega
    unfold Rel.blockCombine
    simp only
    rw [mkVec_int hlen, ok_bind, mkVec_int (by omega), ok_bind, mkVec_int (by omega), ok_bind, wr_int le_rfl (by simp; omega), ok_bind,
      h.forRows_blockOf]
    have hbody : ∀ (c : Int) (d : R) (out : Int × List Int × List R), True → (do
        let ind ← wr out.2.1 out.1 c
        let dat ← wr out.2.2 out.1 d
        (.ok (out.1 + 1, ind, dat) : Res (Int × List Int × List R))) = .error .outOfBounds ∨ ∃ s', (do
        let ind ← wr out.2.1 out.1 c
        let dat ← wr out.2.2 out.1 d
        (.ok (out.1 + 1, ind, dat) : Res (Int × List Int × List R))) = .ok s' ∧ True := by
      intro c d out _
      rcases wr_either out.2.1 out.1 c with h1 | ⟨v1, h1⟩
      · rw [h1]; exact Or.inl rfl
      · rw [h1, ok_bind]
        rcases wr_either out.2.2 out.1 d with h2 | ⟨v2, h2⟩
        · rw [h2]; exact Or.inl rfl
        · rw [h2, ok_bind]; exact Or.inr ⟨_, rfl, trivial⟩
    rw [forUp_stops (fun _ => True) .outOfBounds trivial]
    · rfl
    · intro p st p0 p1 _
      obtain ⟨I, i, -, I0, I1, i0, i1, e1, e2⟩ := h.blockOf_ok p0 p1
      rw [e2, e1]
      rcases (h.forEntries_either I0 I1 i0 (fun _ => True) (s := st.2) trivial hbody).1 with h1 | ⟨o, h1, -⟩
      · rw [h1]; exact Or.inl rfl
      · rw [h1, ok_bind]
        rcases wr_either st.1 (p + 1) o.1 with h2 | ⟨v2, h2⟩
        · rw [h2]; exact Or.inl rfl
        · rw [h2, ok_bind]; exact Or.inr ⟨_, rfl, trivial⟩
    · simp only [not_forall] at hno
      obtain ⟨I, i, I0, I1, i0, i1, hr⟩ := hno
      have hI1 := I1
      unfold BlockMat.nI at hI1
      have a := h.rowOff_ok.nonneg I0 (by omega)
      have b := h.rowOff_ok.le_last (show 0 ≤ I + 1 by omega) (by omega)
      refine ⟨vecAt B.rowOff I + i, by omega, by omega, fun st _ => ?_⟩
      rw [BlockMat.blockOf_eq h.rowOff_ok I0 hI1 i0 i1, show vecAt B.rowOff I + i - vecAt B.rowOff I = i by omega,
        (h.forEntries_either I0 I1 i0 (fun _ => True) (s := st.2) trivial hbody).2 hr]
      rfl

/-! ## Examples -/

/-- C142: a `1 × 2` layout whose second block is unset. -/
def exLay : BlockMat Int := ⟨1, 2, [0, 1], [0, 1, 2], [[⟨1, 1, [0, 1], [0], [5]⟩, Csr.empty]]⟩

theorem exLay_layout : exLay.Layout := ⟨by decide, by decide, rfl, by decide, by decide⟩

/-- C142: a `2 × 2` block stored at a place for a `1 × 1` block.  With assertions it is refused; without, the product of its first row acts on both
columns, and `Combine` allocates room for four elements but points at the first two only, so the result is not well formed. -/
def exWide : BlockMat Int := ⟨1, 2, [0, 1], [0, 1, 2], [[⟨2, 2, [0, 2, 4], [0, 1, 0, 1], [1, 2, 3, 4]⟩, Csr.empty]]⟩

theorem exWide_layout : exWide.Layout := ⟨by decide, by decide, rfl, by decide, by decide⟩

/-- C142: the two builds on a block of the wrong size. -/
example : Rel.blockSet .debug exLay 0 0 ⟨2, 2, [0, 2, 4], [0, 1, 0, 1], [1, 2, 3, 4]⟩ = .error .assertFail ∧
    Rel.blockSet .release exLay 0 0 ⟨2, 2, [0, 2, 4], [0, 1, 0, 1], [1, 2, 3, 4]⟩ = .ok exWide ∧
    Rel.blockSet .release exLay 1 0 ⟨1, 1, [0, 1], [0], [7]⟩ = .error .outOfBounds ∧
    Rel.blockMult .release exWide [10, 1] [0] = .ok [12] ∧ Rel.blockMult .release exWide [10] [0] = .error .outOfBounds ∧
    Rel.blockMultAT .release exWide [10] [0, 0, 9] = .ok [10, 20, 0] ∧
    Rel.blockCombine .release exWide = .ok ⟨1, 2, [0, 2], [0, 1, 0, 0], [1, 2, 0, 0]⟩ ∧ Rel.blockCombine .debug exWide = .ok ⟨1, 2, [0, 2], [0, 1, 0, 0], [1, 2, 0, 0]⟩ := by
  decide +kernel

/-- C142: the hypotheses of the product theorems hold for the wide block and an input of two elements. -/
example : ∀ I i, 0 ≤ I → I < exWide.nI → 0 ≤ i → i < vecAt exWide.rowOff (I + 1) - vecAt exWide.rowOff I → exWide.RowOk I i (· < (([10, 1] : List Int).length : Int)) := by
  intro I i I0 I1 i0 i1 J J0 J1
  have hI : I = 0 := by simp [exWide, BlockMat.nI] at I1; omega
  subst hI
  have hi : i = 0 := by simp [exWide, vecAt] at i1; omega
  subst hi
  have hJ : J = 0 ∨ J = 1 := by simp [exWide, BlockMat.nJ] at J1; omega
  rcases hJ with rfl | rfl
  · exact Or.inr (by decide)
  · exact Or.inl (by decide)

/-- C142: `Transpose` of a single `1 × 2` block keeps the block: it no longer has the two rows its place needs, so the product reads past its row
pointers. -/
example : Rel.blockTranspose .debug (⟨1, 2, [0, 1], [0, 2], [[⟨1, 2, [0, 2], [0, 1], [3, 4]⟩]]⟩ : BlockMat Int) = .error .assertFail ∧
    Rel.blockTranspose .release (⟨1, 2, [0, 1], [0, 2], [[⟨1, 2, [0, 2], [0, 1], [3, 4]⟩]]⟩ : BlockMat Int)
      = .ok ⟨2, 1, [0, 2], [0, 1], [[⟨1, 2, [0, 2], [0, 1], [3, 4]⟩]]⟩ ∧
    Rel.blockMult .release (⟨2, 1, [0, 2], [0, 1], [[⟨1, 2, [0, 2], [0, 1], [3, 4]⟩]]⟩ : BlockMat Int) [1, 1, 1] [0, 0] = .error .outOfBounds := by
  decide +kernel

end Linalg
