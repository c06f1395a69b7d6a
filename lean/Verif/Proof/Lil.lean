import Verif.Proof.Coo
import Verif.Proof.Fill

/-!
# List-of-lists matrices: merging of sorted rows
-/

namespace Linalg
open Cpp

variable {α R : Type}

/-- Append a node to a row, adding to the last entry if the column is the same. -/
def mergeIn [Add α] (acc : List (Int × α)) (node : Int × α) : List (Int × α) :=
  match acc.getLast? with
  | some e => if e.1 = node.1 then acc.dropLast ++ [(e.1, e.2 + node.2)] else acc ++ [node]
  | none => acc ++ [node]

theorem mergeIn_nil [Add α] (node : Int × α) : mergeIn [] node = [node] := rfl

theorem mergeIn_same [Add α] (acc : List (Int × α)) (c : Int) (v w : α) :
    mergeIn (acc ++ [(c, v)]) (c, w) = acc ++ [(c, v + w)] := by
  unfold mergeIn
  simp

theorem mergeIn_diff [Add α] (acc : List (Int × α)) (e node : Int × α) (h : e.1 ≠ node.1) :
    mergeIn (acc ++ [e]) node = acc ++ [e] ++ [node] := by
  unfold mergeIn
  simp [h]

theorem mergeStep_eq [Add α] (pre acc : List (Int × α)) (node : Int × α) :
    Lil.mergeStep (pre.length : Int) ((pre ++ acc).map Prod.fst, (pre ++ acc).map Prod.snd) node
      = .ok ((pre ++ mergeIn acc node).map Prod.fst, (pre ++ mergeIn acc node).map Prod.snd) := by
  unfold Lil.mergeStep
  rcases List.eq_nil_or_concat' acc with rfl | ⟨acc, e, rfl⟩
  · rw [if_neg (by simp), mergeIn_nil]
    simp
  · obtain ⟨c, v⟩ := e
    obtain ⟨d, w⟩ := node
    by_cases h : c = d
    · subst h
      rw [if_pos (by constructor
                     · simp; omega
                     · simp), mergeIn_same]
      simp only [List.map_append, List.map_cons, List.map_nil, ← List.append_assoc]
      rw [rd_at (ys := []) (by simp; omega), ok_bind, wr_at (ys := []) (by simp; omega)]
      rfl
    · rw [if_neg (by simp [h]), mergeIn_diff _ _ _ h]
      simp

theorem mergeStep_foldlM [Add α] (pre acc l : List (Int × α)) :
    l.foldlM (Lil.mergeStep (pre.length : Int)) ((pre ++ acc).map Prod.fst, (pre ++ acc).map Prod.snd)
      = .ok ((pre ++ l.foldl mergeIn acc).map Prod.fst, (pre ++ l.foldl mergeIn acc).map Prod.snd) := by
  induction l generalizing acc with
  | nil => rfl
  | cons e l ih => rw [List.foldlM_cons, mergeStep_eq, ok_bind, ih]; rfl

theorem rowCoef_mergeIn [AddMonoid R] (acc : List (Int × R)) (node : Int × R) (j : Int) :
    rowCoef (mergeIn acc node) j = rowCoef acc j + (if node.1 = j then node.2 else 0) := by
  rcases List.eq_nil_or_concat' acc with rfl | ⟨acc, e, rfl⟩
  · rw [mergeIn_nil, rowCoef_cons]; simp
  · obtain ⟨c, v⟩ := e
    obtain ⟨d, w⟩ := node
    by_cases h : c = d
    · subst h
      rw [mergeIn_same, rowCoef_append, rowCoef_append, rowCoef_cons, rowCoef_cons]
      by_cases hc : c = j <;> simp [hc, add_assoc]
    · rw [mergeIn_diff _ _ _ h, rowCoef_append _ [(d, w)], rowCoef_cons]
      simp

theorem rowCoef_foldl_mergeIn [AddMonoid R] (l acc : List (Int × R)) (j : Int) :
    rowCoef (l.foldl mergeIn acc) j = rowCoef acc j + rowCoef l j := by
  induction l generalizing acc with
  | nil => simp
  | cons e l ih => rw [List.foldl_cons, ih, rowCoef_mergeIn, rowCoef_cons, add_assoc]

theorem mergeIn_cols [Add α] (acc : List (Int × α)) (node : Int × α) (P : Int → Prop)
    (ha : ∀ e ∈ acc, P e.1) (hn : P node.1) : ∀ e ∈ mergeIn acc node, P e.1 := by
  rcases List.eq_nil_or_concat' acc with rfl | ⟨acc, e, rfl⟩
  · rw [mergeIn_nil]; simpa using hn
  · obtain ⟨c, v⟩ := e
    obtain ⟨d, w⟩ := node
    by_cases h : c = d
    · subst h
      rw [mergeIn_same]
      intro e he
      simp only [List.mem_append, List.mem_singleton] at he
      rcases he with he | rfl
      · exact ha e (by simp [he])
      · exact hn
    · rw [mergeIn_diff _ _ _ h]
      intro e he
      simp only [List.mem_append, List.mem_singleton] at he
      rcases he with he | rfl
      · exact ha e (by simpa using he)
      · exact hn

theorem foldl_mergeIn_cols [Add α] (l acc : List (Int × α)) (P : Int → Prop)
    (ha : ∀ e ∈ acc, P e.1) (hn : ∀ e ∈ l, P e.1) : ∀ e ∈ l.foldl mergeIn acc, P e.1 := by
  induction l generalizing acc with
  | nil => exact ha
  | cons x l ih =>
    exact ih _ (mergeIn_cols acc x P ha (hn x (by simp))) (fun e he => hn e (by simp [he]))

theorem foldl_mergeIn_ne_nil [Add α] (l acc : List (Int × α)) (h : acc ≠ []) : l.foldl mergeIn acc ≠ [] := by
  induction l generalizing acc with
  | nil => exact h
  | cons x l ih =>
    refine ih _ ?_
    unfold mergeIn
    split
    · split <;> simp
    · simp

theorem foldl_mergeIn_sorted [Add α] (l acc : List (Int × α)) (ha : acc.Pairwise (fun a b => a.1 < b.1))
    (hl : l.Pairwise (fun a b => a.1 ≤ b.1)) (hal : ∀ a ∈ acc, ∀ b ∈ l, a.1 ≤ b.1) :
    (l.foldl mergeIn acc).Pairwise (fun a b => a.1 < b.1) := by
  induction l generalizing acc with
  | nil => exact ha
  | cons x l ih =>
    rw [List.foldl_cons]
    rw [List.pairwise_cons] at hl
    have hmem : ∀ e ∈ mergeIn acc x, ∀ b ∈ l, e.1 ≤ b.1 := fun e he b hb =>
      mergeIn_cols acc x (fun c => c ≤ b.1) (fun a ha => hal a ha b (by simp [hb])) (hl.1 b hb) e he
    refine ih _ ?_ hl.2 hmem
    rcases List.eq_nil_or_concat' acc with rfl | ⟨acc, e, rfl⟩
    · rw [mergeIn_nil]; simp
    · obtain ⟨c, v⟩ := e
      obtain ⟨d, w⟩ := x
      rw [List.pairwise_append] at ha
      by_cases h : c = d
      · subst h
        rw [mergeIn_same, List.pairwise_append]
        refine ⟨ha.1, by simp, ?_⟩
        intro a h1 b h2
        simp only [List.mem_singleton] at h2
        subst h2
        exact ha.2.2 a h1 (c, v) (by simp)
      · rw [mergeIn_diff _ _ _ h, List.pairwise_append]
        have hcd : c < d := lt_of_le_of_ne (hal (c, v) (by simp) (d, w) (by simp)) h
        refine ⟨List.pairwise_append.mpr ha, by simp, ?_⟩
        intro a h1 b h2
        simp only [List.mem_singleton] at h2
        subst h2
        simp only [List.mem_append, List.mem_singleton] at h1
        rcases h1 with h1 | rfl
        · exact lt_trans (ha.2.2 a h1 (c, v) (by simp)) hcd
        · exact hcd

/-- The rows `ToSparse()` produces. -/
def lilRows [Add α] (sort : List (Int × α) → List (Int × α)) (es : List (List (Int × α))) : List (List (Int × α)) :=
  es.map (fun r => (sort r).foldl mergeIn [])

/-- The loop of `ToSparse()`, for any number of row pointers beyond the stored rows. -/
theorem lil_loop [Add α] (es : List (List (Int × α))) (N : Nat) (hN : es.length < N) :
    forUp 0 (es.length : Int) (List.replicate N (0 : Int), ([] : List Int), ([] : List α)) (fun i st => do
      let currentRow ← rd st.1 i
      let row ← rd es i
      let e ← row.foldlM (Lil.mergeStep currentRow) st.2
      let p ← wr st.1 (i + 1) (e.2.length : Int)
      .ok (p, e.1, e.2))
    = .ok (padTo N 0 (ptrs (es.map (fun r => r.foldl mergeIn []))),
        (es.map (fun r => r.foldl mergeIn [])).flatten.map Prod.fst,
        (es.map (fun r => r.foldl mergeIn [])).flatten.map Prod.snd) := by
  generalize hrs : es.map (fun r => r.foldl mergeIn []) = rs
  have hlen : rs.length = es.length := by rw [← hrs]; simp
  obtain ⟨s', h1, h2⟩ := forUp_inv_nat (n := es.length) (f := fun i (st : List Int × List Int × List α) => do
      let currentRow ← rd st.1 i
      let row ← rd es i
      let e ← row.foldlM (Lil.mergeStep currentRow) st.2
      let p ← wr st.1 (i + 1) (e.2.length : Int)
      .ok (p, e.1, e.2))
    (fun i st => st = (padTo N 0 (ptrs (rs.take i)), (rs.take i).flatten.map Prod.fst, (rs.take i).flatten.map Prod.snd))
    (s := (List.replicate N (0 : Int), ([] : List Int), ([] : List α)))
    (by
      simp only [List.take_zero, List.flatten_nil, List.map_nil]
      rw [ptrs_zero_pad (β := Int × α) N (by omega)])
    (by
      rintro i _ hi rfl
      refine ⟨_, ?_, rfl⟩
      have hpl : (ptrs (rs.take i)).length = i + 1 := by simp; omega
      simp only
      rw [rd_padTo (by omega), ok_bind, getElem_ptrs, rd_nat hi, ok_bind]
      have e1 : (((rs.take i).take i).flatten.length) = (rs.take i).flatten.length := by rw [List.take_take]; simp
      rw [e1]
      have := mergeStep_foldlM (rs.take i).flatten [] es[i]
      simp only [List.append_nil] at this
      rw [this, ok_bind]
      have e2 : (rs.take i).flatten ++ es[i].foldl mergeIn [] = (rs.take (i + 1)).flatten := by
        rw [take_succ_eq (by omega), List.flatten_append]
        congr 1
        simp [← hrs]
      simp only [e2]
      rw [List.length_map, wr_ptrs rs (by omega) (by omega), ok_bind])
  rw [h1, h2, List.take_of_length_le (by omega)]

theorem Lil.toSparse_eq [Add α] (sort : List (Int × α) → List (Int × α)) (hsort : IsRowSort sort) (L : Lil α)
    (hL : L.WF) :
    L.toSparse sort = .ok (Csr.ofRows L.cols (lilRows sort L.entries), { L with entries := L.entries.map sort }) := by
  unfold Lil.toSparse
  have hfs : L.findSize = (L.rows, L.cols) := by unfold Lil.findSize; rw [if_pos hL.sized]
  have hlen := hL.rows_len
  have hok : ∀ r ∈ lilRows sort L.entries, ∀ e ∈ r, 0 ≤ e.1 ∧ e.1 < L.cols := by
    intro r hr
    obtain ⟨r0, h0, rfl⟩ := List.mem_map.mp hr
    exact foldl_mergeIn_cols _ _ (fun c => 0 ≤ c ∧ c < L.cols) (by simp)
      (fun e he => hL.cols_ok r0 h0 e ((hsort r0).1.mem_iff.mp he))
  rw [hfs]
  simp only
  by_cases h0 : L.entries.length = 0
  · rw [if_pos h0]
    have he : L.entries = [] := List.length_eq_zero_iff.mp h0
    have hr : L.rows = 0 := by omega
    have hz : Csr.zero (α := α) L.rows L.cols = .ok (Csr.ofRows L.cols []) := by
      rw [hr]
      unfold Csr.zero
      rw [cassert_true (by omega), cassert_true hL.cols_nonneg]
      rfl
    rw [hz, ok_bind]
    simp only [lilRows, he, List.map_nil]
    congr 2
    cases L
    simp_all
  · rw [if_neg h0]
    obtain ⟨N, hN⟩ : ∃ N : Nat, L.rows = N := ⟨L.entries.length, by omega⟩
    have hNl : L.entries.length = N := by omega
    rw [show L.rows + 1 = ((N + 1 : Nat) : Int) by omega, mkVec_nat, ok_bind]
    have hw : wr (List.replicate (N + 1) (0 : Int)) 0 0 = .ok (List.replicate (N + 1) 0) := by
      rw [show (0 : Int) = ((0 : Nat) : Int) from rfl, wr_nat (by simp)]
      simp [List.replicate_succ]
    rw [hw, ok_bind, lil_loop _ (N + 1) (by simp; omega), ok_bind]
    have := Csr.ofArrays_ofRows hL.cols_nonneg hok
    have e1 : ((L.entries.map sort).map (fun r => r.foldl mergeIn [])) = lilRows sort L.entries := by
      simp [lilRows]
    rw [e1, padTo_full (by simp [lilRows, hNl])]
    simp only
    rw [show L.rows = ((lilRows sort L.entries).length : Int) by simp [lilRows]; omega, this, ok_bind]

end Linalg
