import Verif.Model.ReleaseElim
import Verif.Props.ReleaseSparse2

/-! # C147: EliminateCol(marker, x, b) without assertions -/

namespace Linalg
open Cpp

variable {α R : Type}

/-- **C147.**  With assertions the function is that of the other model. -/
theorem C147_debug [Zero α] [Sub α] [Mul α] [DecidableEq α] (A : Csr α) (marker : List Bool) (x b : List α) :
    Rel.eliminateColRhs .debug A marker x b = A.eliminateColRhs marker x b := rfl

/-- **C147.**  A call that passes the assertions gives the same result when they are compiled away. -/
theorem C147_same [Zero α] [Sub α] [Mul α] [DecidableEq α] (A : Csr α) (marker : List Bool) (x b : List α) :
    Refines (A.eliminateColRhs marker x b) (Rel.eliminateColRhs .release A marker x b) := by
  rw [← C147_debug]
  unfold Rel.eliminateColRhs
  refine (Refines.assert _).bind fun _ => Refines.bind (Refines.forUp fun row st => Refines.forRow fun j st => (Refines.refl _).bind fun c =>
    (Refines.refl _).bind fun m => (Refines.refl _).bind fun d => ?_) fun _ => Refines.refl _
  split
  · exact (Refines.vrd x c).bind fun _ => (Refines.vrd _ _).bind fun _ => (Refines.vwr _ _ _).bind fun _ => Refines.refl _
  · exact Refines.refl _

/-- The loop as a loop over the stored elements that changes the right hand side only. -/
theorem Rel.eliminateColRhs_eq [Ring R] [DecidableEq R] {n : Int} {rs : List (List (Int × R))} (hrs : ∀ r ∈ rs, ∀ e ∈ r, 0 ≤ e.1 ∧ e.1 < n)
    (marker : List Bool) (x b : List R) :
    Rel.eliminateColRhs .release (Csr.ofRows n rs) marker x b
      = ((triplesL rs).foldlM (fun (b : List R) t => (if t.2.1 < (marker.length : Int) then
            if marked marker t.2.1 ∧ t.2.2 ≠ 0 then do
              let xv ← rd x t.2.1
              let old ← rd b t.1
              wr b t.1 (old - t.2.2 * xv)
            else .ok b
          else .error .outOfBounds : Res (List R))) b >>= fun b' =>
        .ok ({ Csr.ofRows n rs with data := (triplesL rs).map (fun t => if marked marker t.2.1 then 0 else t.2.2) }, b')) := by
  have hloop : forUp 0 (Csr.ofRows n rs).rows ((Csr.ofRows n rs).data, b) (fun row st =>
      (Csr.ofRows n rs).forRow row st (fun j st => do
        let c ← rd (Csr.ofRows n rs).indices j
        let m ← rd marker c
        let d ← rd st.1 j
        if m = true ∧ d ≠ 0 then
          let xv ← rd x c
          let old ← rd st.2 row
          let b ← wr st.2 row (old - d * xv)
          let data ← wr st.1 j 0
          .ok (data, b)
        else .ok st))
      = ((triplesL rs).foldlM (fun (b : List R) t => (if t.2.1 < (marker.length : Int) then
            if marked marker t.2.1 ∧ t.2.2 ≠ 0 then do
              let xv ← rd x t.2.1
              let old ← rd b t.1
              wr b t.1 (old - t.2.2 * xv)
            else .ok b
          else .error .outOfBounds : Res (List R))) b >>= fun b' =>
        .ok ((triplesL rs).map (fun t => if marked marker t.2.1 then 0 else t.2.2), b')) := by
    rw [rowLoop_pos]
    have e : (Csr.ofRows n rs).data = (triplesL rs).map (fun t => t.2.2) := by
      simp only [Csr.ofRows, ← triplesL_map_snd rs, List.map_map, Function.comp_def]
    rw [e]
    apply foldlM_zipIdx_set2
    intro p hp d s hd hv
    have hmem : (triplesL rs)[p] ∈ triplesL rs := List.getElem_mem hp
    have hi : rd (Csr.ofRows n rs).indices (p : Int) = .ok (triplesL rs)[p].2.1 := by
      rw [rd_eq_ok]
      refine ⟨by omega, ?_⟩
      simp only [Csr.ofRows, ← triplesL_map_snd rs, Int.toNat_natCast]
      simp [hp]
    have hdp : rd d (p : Int) = .ok (triplesL rs)[p].2.2 := by
      rw [rd_eq_ok]; exact ⟨by omega, by simpa using hv⟩
    generalize (triplesL rs)[p] = t at hmem hi hdp
    have hc := (triplesL_ok hrs t hmem).2
    by_cases hm : t.2.1 < (marker.length : Int)
    · simp only [hi, ok_bind, rd_marker hc.1 hm, hdp, decide_eq_true_eq, if_pos hm]
      by_cases e1 : marked marker t.2.1
      · by_cases e2 : t.2.2 = 0
        · simp only [e1, e2, ne_eq, not_true_eq_false, and_false, if_false, if_true, ok_bind]
          rw [set_getElem_self d p 0 (by rw [← e2]; exact hdp)]
        · simp only [e1, e2, ne_eq, not_false_eq_true, and_true, if_true, bind_assoc]
          congr 1
          funext xv
          congr 1
          funext old
          congr 1
          funext b'
          rw [wr_nat (by omega)]
          rfl
      · simp only [e1, false_and, if_false, ok_bind]
        rw [set_getElem_self d p _ hdp]
    · simp only [hi, ok_bind, if_neg hm]
      rw [rd_oob (by omega)]
      rfl
  show (forUp 0 (Csr.ofRows n rs).rows ((Csr.ofRows n rs).data, b) _ >>= fun st => .ok ({ Csr.ofRows n rs with data := st.1 }, st.2)) = _
  refine (congrArg (· >>= fun st => .ok ({ Csr.ofRows n rs with data := st.1 }, st.2)) hloop).trans ?_
  simp only [bind_assoc, ok_bind]

/-- **C147.**  `EliminateCol(marker, x, b)` with vectors of any lengths: it works exactly if the marker has an element for every stored column, and `x` has an
element for the column and `b` one for the row of every marked stored value that is not zero.  The result is then the usual one: marked columns become zero
and each element of `b` loses the products of its row with the elements of `x` in marked columns. -/
theorem C147_eliminateColRhs [Ring R] [DecidableEq R] (A : Csr R) (hA : A.WF) (marker : List Bool) (x b : List R) :
    ((∀ i, ∀ e ∈ A.row i, e.1 < (marker.length : Int) ∧ (marked marker e.1 → e.2 ≠ 0 → e.1 < (x.length : Int) ∧ i < (b.length : Int))) →
      ∃ B b', Rel.eliminateColRhs .release A marker x b = .ok (B, b') ∧ B.WF ∧ b'.length = b.length ∧
        A.UpdatedBy B (fun _ j v => if marked marker j then 0 else v) ∧
        (∀ i, 0 ≤ i → i < A.rows → i < (b.length : Int) → rd b' i = .ok (vecAt b i -
          ∑ j ∈ Finset.Ico 0 A.cols, A.coef i j * (if marked marker j then vecAt x j else 0))) ∧
        (∀ i, A.rows ≤ i → rd b' i = rd b i)) ∧
    (¬ (∀ i, ∀ e ∈ A.row i, e.1 < (marker.length : Int) ∧ (marked marker e.1 → e.2 ≠ 0 → e.1 < (x.length : Int) ∧ i < (b.length : Int))) →
      Rel.eliminateColRhs .release A marker x b = .error .outOfBounds) := by
  obtain ⟨n, rs, hn, hrs, rfl⟩ := hA.exists_rows
  rw [Rel.eliminateColRhs_eq hrs]
  have hrow : ∀ t ∈ triplesL rs, t.2 ∈ (Csr.ofRows n rs).row t.1 := by
    intro t ht
    obtain ⟨k, hk, h1, h2⟩ := mem_triplesL.mp ht
    rw [h1, Csr.row_ofRows _ rs k hk]
    exact h2
  constructor
  · intro h
    obtain ⟨b2, hb1, hb2, hb3⟩ := foldlM_inv (l := triplesL rs)
      (f := fun (b : List R) t => (if t.2.1 < (marker.length : Int) then
            if marked marker t.2.1 ∧ t.2.2 ≠ 0 then do
              let xv ← rd x t.2.1
              let old ← rd b t.1
              wr b t.1 (old - t.2.2 * xv)
            else .ok b
          else .error .outOfBounds : Res (List R)))
      (fun pre (b' : List R) => b'.length = b.length ∧ ∀ k < b.length, b'[k]? = some (vecAt b (k : Int) -
        (pre.map (fun t => if t.1 = (k : Int) ∧ marked marker t.2.1 then t.2.2 * vecAt x t.2.1
          else 0)).sum)) (s := b)
      ⟨rfl, by
        intro k hk
        rw [vecAt_nat b k hk, List.getElem?_eq_getElem hk]; simp⟩ (by
        intro pre t post b' hl ⟨hl1, hl2⟩
        have hmem : t ∈ triplesL rs := by rw [hl]; simp
        have hc := (triplesL_ok hrs t hmem)
        obtain ⟨g1, g2⟩ := h t.1 t.2 (hrow t hmem)
        simp only [if_pos g1]
        by_cases e : marked marker t.2.1 ∧ t.2.2 ≠ 0
        · rw [if_pos e]
          obtain ⟨g3, g4⟩ := g2 e.1 e.2
          obtain ⟨q, hq⟩ : ∃ q : Nat, t.1 = (q : Int) := ⟨t.1.toNat, by omega⟩
          have hqb : q < b.length := by omega
          rw [rd_vecAt x hc.2.1 g3, ok_bind, hq, rd_nat (by omega), ok_bind]
          refine ⟨_, wr_nat (by omega), by simp [hl1], ?_⟩
          intro k hk
          rw [List.getElem?_set, List.map_append, List.sum_append]
          by_cases ek : q = k
          · subst ek
            have := hl2 q hk
            rw [List.getElem?_eq_getElem (by omega)] at this
            rw [if_pos rfl, if_pos (by omega), Option.some.inj this]
            simp [hq, e.1, sub_sub]
          · rw [if_neg ek, hl2 k hk]
            have : ¬ ((q : Int) = (k : Int)) := by omega
            simp [hq, this]
        · rw [if_neg e]
          refine ⟨_, rfl, hl1, ?_⟩
          intro k hk
          rw [hl2 k hk, List.map_append, List.sum_append]
          have : (if t.1 = (k : Int) ∧ marked marker t.2.1 then t.2.2 * vecAt x t.2.1 else 0) = 0 := by
            by_cases e3 : t.1 = (k : Int) ∧ marked marker t.2.1
            · rw [if_pos e3]
              have : t.2.2 = 0 := by by_contra hne; exact e ⟨e3.2, hne⟩
              rw [this, zero_mul]
            · rw [if_neg e3]
          simp [this])
    rw [hb1]
    simp only [ok_bind]
    have hdata : { Csr.ofRows n rs with
          data := (triplesL rs).map (fun t => if marked marker t.2.1 then 0 else t.2.2) }
        = Csr.ofRows n (mapRows (fun _ e => if marked marker e.1 then 0 else e.2) rs) := by
      rw [ofRows_mapRows]; rfl
    refine ⟨_, _, rfl, ?_, hb2, ?_, ?_, ?_⟩
    · rw [hdata]; exact Csr.wf_ofRows hn (mapRows_ok hrs)
    · rw [hdata]; exact updatedBy_mapRows n rs _
    · intro i h0 h1 hib
      have h1' : i < (rs.length : Int) := h1
      obtain ⟨k, rfl⟩ : ∃ k : Nat, i = (k : Int) := ⟨i.toNat, by omega⟩
      rw [rd_eq_ok]
      refine ⟨h0, ?_⟩
      rw [Int.toNat_natCast, hb3 k (by omega)]
      congr 2
      have hs := sum_triplesL rs (fun i e => if i = (k : Int) ∧ marked marker e.1 then e.2 * vecAt x e.1
        else (0 : R))
      rw [hs, Finset.sum_eq_single (k : Int)]
      · have := sum_row_eq (r := rs.getD k []) (n := n) (by
          rw [List.getD_eq_getElem?_getD, List.getElem?_eq_getElem (by omega)]
          exact hrs _ (List.getElem_mem _)) (fun c => if marked marker c then vecAt x c else 0)
        simp only [true_and, Int.toNat_natCast]
        simp only [coef_ofRows_getD n rs h0, Int.toNat_natCast]
        refine Eq.trans ?_ this
        congr 1
        apply List.map_congr_left
        intro e _
        split <;> simp
      · intro i' _ hne
        have : ∀ l : List (Int × R), (l.map (fun e => if i' = (k : Int) ∧ marked marker e.1
            then e.2 * vecAt x e.1 else (0 : R))).sum = 0 := by
          intro l; simp [hne]
        exact this _
      · intro hnot
        exact absurd (Finset.mem_Ico.mpr ⟨h0, h1'⟩) hnot
    · intro i h0
      have h0' : (rs.length : Int) ≤ i := h0
      obtain ⟨k, rfl⟩ : ∃ k : Nat, i = (k : Int) := ⟨i.toNat, by omega⟩
      by_cases hk : k < b.length
      · rw [rd_nat hk, rd_eq_ok]
        refine ⟨by omega, ?_⟩
        rw [Int.toNat_natCast, hb3 k hk, vecAt_nat b k hk]
        congr 1
        have : (triplesL rs).map (fun t => if t.1 = (k : Int) ∧ marked marker t.2.1 then t.2.2 * vecAt x t.2.1
            else (0 : R)) = (triplesL rs).map (fun _ => 0) := by
          apply List.map_congr_left
          intro t ht
          have := (triplesL_ok hrs t ht).1
          rw [if_neg (by omega)]
        rw [this]; simp
      · rw [rd_oob (by omega), rd_oob (by omega)]
  · intro h
    rw [foldlM_fails (fun (b' : List R) => b'.length = b.length)
      (fun t => t.2.1 < (marker.length : Int) ∧ (marked marker t.2.1 → t.2.2 ≠ 0 → t.2.1 < (x.length : Int) ∧ t.1 < (b.length : Int))) .outOfBounds rfl ?_ ?_ ?_]
    · rfl
    · intro s t ht hs ⟨g1, g2⟩
      have hc := triplesL_ok hrs t ht
      rw [if_pos g1]
      split
      · rename_i e
        obtain ⟨g3, g4⟩ := g2 e.1 e.2
        obtain ⟨q, hq⟩ : ∃ q : Nat, t.1 = (q : Int) := ⟨t.1.toNat, by omega⟩
        rw [rd_vecAt x hc.2.1 g3, ok_bind, hq, rd_nat (by omega), ok_bind]
        exact ⟨_, wr_nat (by omega), by simpa using hs⟩
      · exact ⟨_, rfl, hs⟩
    · intro s t ht hs hg
      have hc := triplesL_ok hrs t ht
      by_cases g1 : t.2.1 < (marker.length : Int)
      · rw [if_pos g1]
        have e : marked marker t.2.1 ∧ t.2.2 ≠ 0 ∧ ¬ (t.2.1 < (x.length : Int) ∧ t.1 < (b.length : Int)) := by
          by_contra hh
          refine hg ⟨g1, fun a1 a2 => ?_⟩
          by_contra a3
          exact hh ⟨a1, a2, a3⟩
        rw [if_pos ⟨e.1, e.2.1⟩]
        by_cases g3 : t.2.1 < (x.length : Int)
        · rw [rd_vecAt x hc.2.1 g3, ok_bind, rd_oob (by have := fun h4 => e.2.2 ⟨g3, h4⟩; omega)]
          rfl
        · rw [rd_oob (by omega)]
          rfl
      · rw [if_neg g1]
    · by_contra hall
      refine h fun i e he => ?_
      have i0 : 0 ≤ i := by
        by_contra hi
        rw [Csr.row_neg _ (by omega)] at he
        simp at he
      obtain ⟨q, rfl⟩ : ∃ q : Nat, i = (q : Int) := ⟨i.toNat, by omega⟩
      have hq : q < rs.length := by
        by_contra hq
        rw [row_ofRows_getD _ rs i0, Int.toNat_natCast, List.getD_eq_getElem?_getD, List.getElem?_eq_none (by omega)] at he
        exact absurd he (by simp)
      rw [Csr.row_ofRows _ rs q hq] at he
      by_contra hb
      exact hall ⟨((q : Int), e), mem_triplesL.mpr ⟨q, hq, rfl, he⟩, hb⟩

/-! ## Concrete cases -/

/-- `[[5, 7, 0], [0, 0, 2]]` with a stored zero at the end of the first row. -/
def C147_A : Csr Int := ⟨2, 3, [0, 3, 4], [0, 1, 2, 2], [5, 7, 0, 2]⟩

theorem C147_A_wf : C147_A.WF := by
  have hA : C147_A = Csr.ofRows 3 [[(0, 5), (1, 7), (2, 0)], [(2, 2)]] := by decide
  rw [hA]
  exact Csr.wf_ofRows (by decide) (by decide)

/-- Only the first two columns are needed of `x` and only the first row of `b` as nothing but `7` is eliminated. -/
example : Rel.eliminateColRhs .release C147_A [false, true, false] [1, 10] [100] = .ok (⟨2, 3, [0, 3, 4], [0, 1, 2, 2], [5, 0, 0, 2]⟩, [30]) ∧
    Rel.eliminateColRhs .release C147_A [false, true] [1, 10] [100] = .error .outOfBounds ∧
    Rel.eliminateColRhs .debug C147_A [false, true] [1, 10] [100] = .error .assertFail ∧
    Rel.eliminateColRhs .release C147_A [false, true, false] [1] [100] = .error .outOfBounds ∧
    Rel.eliminateColRhs .debug C147_A [false, true, false] [1] [100] = .error .assertFail ∧
    Rel.eliminateColRhs .release C147_A [false, false, true] [1, 10, 4] [100] = .error .outOfBounds ∧
    Rel.eliminateColRhs .release C147_A [false, false, true] [1, 10, 4] [100, 50, 60] =
      .ok (⟨2, 3, [0, 3, 4], [0, 1, 2, 2], [5, 7, 0, 0]⟩, [100, 42, 60]) := by decide +kernel

/-- The rows of the matrix. -/
theorem C147_A_row : ∀ i, ∀ e ∈ C147_A.row i, (i = 0 ∧ (e = (0, 5) ∨ e = (1, 7) ∨ e = (2, 0))) ∨ (i = 1 ∧ e = (2, 2)) := by
  intro i e he
  have i0 : 0 ≤ i := by
    by_contra hi
    rw [Csr.row_neg _ (by omega)] at he
    simp at he
  have hA : C147_A = Csr.ofRows 3 [[(0, 5), (1, 7), (2, 0)], [(2, 2)]] := by decide
  rw [hA, row_ofRows_getD _ _ i0] at he
  obtain ⟨q, rfl⟩ : ∃ q : Nat, i = (q : Int) := ⟨i.toNat, by omega⟩
  rcases q with _ | _ | q
  · simpa using he
  · simpa using he
  · simp at he

/-- The hypotheses of the theorem hold in such cases. -/
example : ∃ B b', Rel.eliminateColRhs .release C147_A [false, true, false] [1, 10] [100] = .ok (B, b') ∧ B.WF ∧ b'.length = 1 := by
  obtain ⟨B, b', h1, h2, h3, -⟩ := (C147_eliminateColRhs C147_A C147_A_wf [false, true, false] [1, 10] [100]).1 (by
    intro i e he
    rcases C147_A_row i e he with ⟨rfl, rfl | rfl | rfl⟩ | ⟨rfl, rfl⟩ <;> decide)
  exact ⟨B, b', h1, h2, h3⟩

example : Rel.eliminateColRhs .release C147_A [false, true] [1, 10] [100] = .error .outOfBounds :=
  (C147_eliminateColRhs C147_A C147_A_wf [false, true] [1, 10] [100]).2 (fun h =>
    absurd (h 0 (2, 0) (by decide)).1 (by decide))

end Linalg
