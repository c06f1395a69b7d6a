import Verif.Spec.Order
import Verif.Spec.Coo
import Verif.Model.Lil
import Verif.Model.View
import Verif.Proof.Transpose
import Verif.Proof.SpGemm
import Verif.Proof.Dense
import Verif.Proof.Vec
import Verif.Proof.Coo

/-! # Sums in the order in which they are added up: helper lemmas -/

namespace Linalg
open Cpp

variable {α β : Type}

/-- Scatter-add, for any addition: each position collects its increments in order. -/
theorem foldlM_addOrd [Add α] {n : Nat} (l : List β) (pos : β → Int) (inc : β → α)
    (h : ∀ b ∈ l, 0 ≤ pos b ∧ pos b < (n : Int)) (f : Int → α) (body : List α → β → Res (List α))
    (hb : ∀ (out : List α) b, b ∈ l → body out b = (do
      let old ← vrd out (pos b)
      vwr out (pos b) (old + inc b))) :
    l.foldlM body (vecFn n f)
      = .ok (vecFn n (fun a => ((l.filter (fun b => pos b = a)).map inc).foldl (fun s v => s + v) (f a))) := by
  induction l generalizing f with
  | nil => simp
  | cons b l ih =>
    have hp := h b (by simp)
    rw [List.foldlM_cons, hb _ b (by simp), vrd_vecFn hp.1 hp.2, ok_bind, vwr_vecFn _ hp.1 hp.2, ok_bind,
      ih (fun x hx => h x (by simp [hx])) _ (fun out x hx => hb out x (by simp [hx]))]
    congr 1
    apply vecFn_congr
    intro a _ _
    by_cases ha : a = pos b
    · rw [if_pos ha, List.filter_cons, if_pos (by simp [ha])]
      subst ha
      rfl
    · rw [if_neg ha, List.filter_cons, if_neg (by simpa using fun e => ha e.symm)]

/-- A loop that adds up. -/
theorem sumLoopOrd [Add α] (n : Nat) (g : Int → α) (body : Int → α → Res α) (s : α)
    (hb : ∀ i v, 0 ≤ i → i < (n : Int) → body i v = .ok (v + g i)) :
    forUp 0 (n : Int) s body = .ok (((iota n).map g).foldl (fun s v => s + v) s) := by
  have h := forUp_seq (n := n) (by omega) (body := body) (fun k => ((iota k.toNat).map g).foldl (fun s v => s + v) s) (by
    intro k h0 h1
    rw [hb k _ h0 h1]
    obtain ⟨j, rfl⟩ : ∃ j : Nat, k = j := ⟨k.toNat, by omega⟩
    rw [show ((j : Int) + 1).toNat = j + 1 by omega, iota_succ, List.map_append, List.foldl_append]
    rfl)
  simpa [iota] using h

theorem mult_order [Zero α] [Add α] [Mul α] {n : Int} {rs : List (List (Int × α))}
    (h : ∀ r ∈ rs, ∀ e ∈ r, 0 ≤ e.1 ∧ e.1 < n) (x y : List α) (hx : (x.length : Int) = n) (hy : y.length = rs.length) :
    (Csr.ofRows n rs).mult x y = .ok (vecFn rs.length (fun i => addUp (((Csr.ofRows n rs).row i).map (fun e => e.2 * vecAt x e.1)))) := by
  unfold Csr.mult
  rw [cassert_true (by exact hx), cassert_true (by simpa [Csr.ofRows] using hy)]
  simp only [ok_bind]
  have hv : vecFn rs.length (fun i => addUp (((Csr.ofRows n rs).row i).map (fun e => e.2 * vecAt x e.1)))
      = (List.range rs.length).map (fun k : Nat => addUp (((Csr.ofRows n rs).row (k : Int)).map (fun e => e.2 * vecAt x e.1))) := rfl
  rw [hv]
  apply forUp_build hy
  intro i hi out ho
  rw [Csr.forRow_ofRows n rs i hi _ _ (fun e val => .ok (val + e.2 * vecAt x e.1))]
  · have := (foldlM_eq_foldl (l := rs[i]) (f := fun (val : α) e => (.ok (val + e.2 * vecAt x e.1) : Res α))
      (g := fun val e => val + e.2 * vecAt x e.1) (fun _ => True) (s := (0 : α)) trivial
      (fun _ _ _ _ => ⟨rfl, trivial⟩)).1
    rw [this]
    simp only [ok_bind]
    rw [vwr_nat (by omega), Csr.row_ofRows n rs i hi, addUp, List.foldl_map]
  · intro m hm s
    rw [rd_data_ofRows n rs i m hi hm, rd_indices_ofRows n rs i m hi hm]
    simp only [ok_bind]
    have := h _ (List.getElem_mem hi) _ (List.getElem_mem hm)
    rw [vrd_vecAt x this.1 (by omega)]
    rfl

theorem multAT_order [Zero α] [Add α] [Mul α] {n : Int} {rs : List (List (Int × α))}
    (h : ∀ r ∈ rs, ∀ e ∈ r, 0 ≤ e.1 ∧ e.1 < n) (x y : List α) (hx : x.length = rs.length) (hy : (y.length : Int) = n) :
    (Csr.ofRows n rs).multAT x y
      = .ok (vecFn y.length (fun j => addUp (((Csr.ofRows n rs).column j).map (fun e => e.2 * vecAt x e.1)))) := by
  unfold Csr.multAT
  rw [cassert_true (by simpa [Csr.ofRows] using hx), cassert_true (by exact hy)]
  simp only [ok_bind]
  rw [rowLoop_ofRows n rs _ _ (fun i e (out : List α) => do
    let old ← vrd out e.1
    vwr out e.1 (old + e.2 * vecAt x i))]
  · rw [replicate_vecFn, foldlM_addOrd (triplesL rs) (fun t => t.2.1) (fun t => t.2.2 * vecAt x t.1)]
    · congr 1
      apply vecFn_congr
      intro j _ _
      rw [column_ofRows, bucket, List.map_map]
      rfl
    · intro t ht
      obtain ⟨k, hk, -, ht2⟩ := mem_triplesL.mp ht
      have := h _ (List.getElem_mem hk) _ ht2
      omega
    · intro out b _
      rfl
  · intro k m hk hm s
    rw [rd_data_ofRows n rs k m hk hm, rd_indices_ofRows n rs k m hk hm]
    simp only [ok_bind]
    rw [vrd_vecAt x (by omega) (by omega)]
    rfl

theorem addOn_concat [Zero α] [Add α] {l : List α} (h : l ≠ []) (b : α) : addOn (l ++ [b]) = addOn l + b := by
  cases l with
  | nil => exact absurd rfl h
  | cons a l => simp [addOn]

theorem addUp_concat [Zero α] [Add α] (l : List α) (b : α) : addUp (l ++ [b]) = addUp l + b := by
  simp [addUp]

/-- An accumulated row stores the increments of a column, added in order. -/
theorem foldl_accum_ord [Zero α] [Add α] (l : List (Int × α)) :
    ∀ e ∈ l.foldl accum [], e.2 = addOn ((l.filter (fun b => b.1 = e.1)).map Prod.snd) := by
  induction l using List.reverseRecOn with
  | nil => simp
  | append_singleton l b ih =>
    rw [List.foldl_append, List.foldl_cons, List.foldl_nil]
    have hnd := foldl_accum_nodup l [] (by simp)
    have hmem := fun c => foldl_accum_mem l [] c
    simp only [List.map_nil, List.not_mem_nil, false_or] at hmem
    generalize hD : l.foldl accum [] = D at *
    intro e he
    rw [List.filter_append, List.map_append]
    by_cases hm : b.1 ∈ D.map Prod.fst
    · have hlt := idxOf_lt_of_mem_fst hm
      rw [accum_old hlt] at he
      have hk : D[(D.map Prod.fst).idxOf b.1].1 = b.1 := by
        have := List.getElem_idxOf (xs := D.map Prod.fst) (x := b.1) (by simpa using hlt)
        rwa [List.getElem_map] at this
      obtain ⟨k, hk1, rfl⟩ := List.mem_iff_getElem.1 he
      rw [List.getElem_set]
      simp only [List.length_set] at hk1
      split
      · have h1 := ih _ (List.getElem_mem hlt)
        rw [hk] at h1
        dsimp only
        rw [List.filter_cons, if_pos (by simp), List.filter_nil, List.map_cons, List.map_nil, addOn_concat, ← h1]
        intro h0
        obtain ⟨b', hb', hbb⟩ := List.mem_map.1 ((hmem b.1).1 hm)
        have : b'.2 ∈ (l.filter (fun c => c.1 = b.1)).map Prod.snd := List.mem_map.2 ⟨b', by simp [hb', hbb], rfl⟩
        rw [h0] at this
        exact absurd this (by simp)
      · rename_i hne
        have h1 := ih _ (List.getElem_mem hk1)
        have h2 : b.1 ≠ D[k].1 := by
          intro h3
          apply hne
          have e1 : (D.map Prod.fst)[(D.map Prod.fst).idxOf b.1]'(by simpa using hlt) = (D.map Prod.fst)[k]'(by simpa using hk1) := by
            simp only [List.getElem_map]
            rw [hk, h3]
          exact (List.Nodup.getElem_inj_iff hnd).1 e1
        rw [List.filter_cons, if_neg (by simpa using h2), List.filter_nil, List.map_nil, List.append_nil, ← h1]
    · rw [accum_new hm] at he
      rcases List.mem_append.1 he with he | he
      · have h2 : b.1 ≠ e.1 := fun h3 => hm (h3 ▸ List.mem_map_of_mem he)
        rw [List.filter_cons, if_neg (by simpa using h2), List.filter_nil, List.map_nil, List.append_nil, ← ih e he]
      · obtain rfl := List.mem_singleton.1 he
        have h0 : l.filter (fun c => c.1 = e.1) = [] := by
          rw [List.filter_eq_nil_iff]
          intro c hc hce
          exact hm ((hmem e.1).2 (by simpa using ⟨c.2, by rw [← (by simpa using hce : c.1 = e.1)]; exact hc⟩))
        rw [h0]
        simp [addOn]

theorem Dense.mult_order [Zero α] [Add α] [Mul α] (D : Dense α) (hD : D.WF) (x y : List α)
    (hx : (x.length : Int) = D.cols) (hy : (y.length : Int) = D.rows) :
    D.mult x y = .ok (vecFn y.length (fun i => addUp ((iota D.cols.toNat).map (fun j => D.entry i j * vecAt x j)))) := by
  have hD' := hD.is_entry
  have hcn := hD.cols_nonneg
  unfold Dense.mult
  rw [cassert_true hx, cassert_true hy]
  simp only [ok_bind, replicate_vecFn]
  have h := forUp_seq hcn (body := fun j output =>
    forUp 0 D.rows output (fun i output => do
      let a ← D.get i j
      let x ← vrd x j
      let old ← vrd output i
      vwr output i (old + a * x)))
    (fun k => vecFn y.length (fun i => addUp ((iota k.toNat).map (fun j => D.entry i j * vecAt x j)))) (by
      intro k k0 k1
      obtain ⟨j, rfl⟩ : ∃ j : Nat, k = j := ⟨k.toNat, by omega⟩
      rw [← hy]
      refine fillLoop _ _ _ ?_
      intro i h a b e
      rw [hD'.get_eq i j a (by omega) k0 k1]
      simp only [ok_bind]
      rw [vrd_vecAt x k0 (by omega), ok_bind, vrd_vecFn a b, ok_bind, vwr_eq_wr (by simpa using b), e,
        show ((j : Int) + 1).toNat = j + 1 by omega, iota_succ, List.map_append, List.map_cons, List.map_nil, addUp_concat]
      rfl)
  simpa [iota, addUp] using h

theorem Dense.multAT_order [Zero α] [Add α] [Mul α] (D : Dense α) (hD : D.WF) (x y : List α)
    (hx : (x.length : Int) = D.rows) (hy : (y.length : Int) = D.cols) :
    D.multAT x y = .ok (vecFn y.length (fun j => addUp ((iota D.rows.toNat).map (fun i => D.entry i j * vecAt x i)))) := by
  have hD' := hD.is_entry
  have hrn := hD.rows_nonneg
  unfold Dense.multAT
  rw [cassert_true hx, cassert_true hy]
  simp only [ok_bind]
  rw [← hy]
  conv_lhs => rw [eq_vecFn_vecAt y, length_vecFn]
  apply fillLoop
  intro j h a b _
  obtain ⟨m, hm⟩ : ∃ m : Nat, D.rows = m := ⟨D.rows.toNat, by omega⟩
  rw [hm, sumLoopOrd m (fun i => D.entry i j * vecAt x i) _ 0 (by
    intro i v i0 i1
    rw [hD'.get_eq i j i0 (by omega) a (by omega), ok_bind, vrd_vecAt x i0 (by omega), ok_bind]), ok_bind,
    vwr_eq_wr (by simpa using b)]
  rfl

end Linalg
