import Verif.Spec.Par
import Verif.Proof.Vec
import Verif.Proof.Coo
import Verif.Proof.Sort
import Mathlib.Algebra.Order.BigOperators.Group.List

/-! # Offsets of distributed ranges -/

namespace Linalg
open Cpp

namespace Par

/-- What the first `r` processes have together in component `k`. -/
def before (sizes : List (List Int)) (r : Nat) (k : Int) : Int := ((sizes.take r).map (fun s => vecAt s k)).sum

theorem before_succ (sizes : List (List Int)) (r : Nat) (h : r < sizes.length) (k : Int) :
    before sizes (r + 1) k = before sizes r k + vecAt sizes[r] k := by
  unfold before
  rw [List.take_succ_eq_append_getElem h, List.map_append, List.sum_append, List.map_singleton, List.sum_singleton]

theorem scanFrom_eq (m : Nat) (f : Int → Int) (bs : List (List Int)) (h : ∀ b ∈ bs, b.length = m) :
    scanFrom (vecFn m f) bs = (List.range bs.length).map (fun r => vecFn m (fun k => f k + before bs (r + 1) k)) := by
  induction bs generalizing f with
  | nil => rfl
  | cons b bs ih =>
    have hb := h b (by simp)
    have e : List.zipWith (· + ·) (vecFn m f) b = vecFn m (fun k => f k + vecAt b k) := by
      conv_lhs => rw [eq_vecFn_vecAt b, hb]
      unfold vecFn
      rw [List.zipWith_map, List.zipWith_self]
    rw [scanFrom, e, ih _ (fun x hx => h x (by simp [hx])), List.length_cons, List.range_succ_eq_map, List.map_cons, List.map_map]
    congr 1
    · apply vecFn_congr; intro i _ _; simp [before]
    · apply List.map_congr_left
      intro r _
      simp only [Function.comp]
      apply vecFn_congr; intro i _ _
      simp [before, add_assoc]

theorem mpiScan_eq (m : Nat) (bs : List (List Int)) (h : ∀ b ∈ bs, b.length = m) :
    mpiScan bs = .ok ((List.range bs.length).map (fun r => vecFn m (fun k => before bs (r + 1) k))) := by
  match bs, h with
  | [], _ => rfl
  | b :: bs, h =>
    unfold mpiScan
    simp only
    rw [if_pos (by
      rw [List.all_eq_true]
      intro c hc
      simp [h c (by simp [hc]), h b (by simp)]), replicate_vecFn, h b (by simp), scanFrom_eq m _ _ h]
    simp

theorem mpiBcastLast_eq (n m : Nat) (f : Nat → Int → Int) :
    mpiBcastLast ((List.range n).map (fun r => vecFn m (f r))) = .ok ((List.range n).map (fun _ => vecFn m (f (n - 1)))) := by
  unfold mpiBcastLast
  cases n with
  | zero => rfl
  | succ n =>
    have : ((List.range (n + 1)).map (fun r => vecFn m (f r))).getLast? = some (vecFn m (f n)) := by
      rw [List.range_succ, List.map_append]; simp
    rw [this]
    simp only
    rw [if_pos (by simp), List.map_map]
    rfl

theorem offsetsLocal_eq (m : Nat) (s t : Int → Int) :
    offsetsLocal (vecFn m s) (vecFn m t) = .ok (vecFn m (fun k => [t k - s k, t k, 0])) := by
  unfold offsetsLocal
  rw [length_vecFn, replicate_vecFn]
  refine fillLoop' _ _ _ (fun i h h0 h1 hi => ?_)
  rw [rd_vecFn h0 h1, rd_vecFn h0 h1, rd_vecFn h0 h1, hi]
  simp only [ok_bind]
  have e1 : wr (List.replicate 3 (0 : Int)) 0 (t i - s i) = .ok [t i - s i, 0, 0] := by rw [wr_int (by decide) (by decide)]; rfl
  rw [e1, ok_bind, wr_vecFn _ h0 h1, ok_bind, rd_vecFn h0 h1, ok_bind, if_pos rfl]
  have e2 : wr [t i - s i, 0, 0] 1 (t i) = .ok [t i - s i, t i, 0] := by rw [wr_int (by decide) (by simp)]; rfl
  rw [e2, ok_bind, wr_vecFn _ h0 h1]
  congr 1
  apply vecFn_congr; intro j _ _
  by_cases hj : j = i <;> simp [hj]

theorem offsetsTotal_eq (m : Nat) (a b t : Int → Int) :
    offsetsTotal (m : Int) (vecFn m (fun k => [a k, b k, 0])) (vecFn m t) = .ok (vecFn m (fun k => [a k, b k, t k])) := by
  unfold offsetsTotal
  refine fillLoop' _ _ _ (fun i h h0 h1 hi => ?_)
  rw [rd_vecFn h0 h1, rd_vecFn h0 h1, hi]
  simp only [ok_bind]
  have e1 : wr [a i, b i, 0] 2 (t i) = .ok [a i, b i, t i] := by rw [wr_int (by decide) (by simp)]; rfl
  rw [e1, ok_bind, wr_vecFn _ h0 h1]

theorem zip_map_range {β γ : Type} (l : List β) (d : β) (f : Nat → γ) :
    l.zip ((List.range l.length).map f) = (List.range l.length).map (fun r => (l.getD r d, f r)) := by
  apply List.ext_getElem
  · simp
  · intro k h1 h2
    have hk : k < l.length := by simpa using h2
    simp [List.getD_eq_getElem?_getD, List.getElem?_eq_getElem hk]

theorem generateOffsets_eq (m : Nat) (sizes : List (List Int)) (h : ∀ s ∈ sizes, s.length = m) :
    generateOffsets sizes = .ok ((List.range sizes.length).map (fun r =>
      vecFn m (fun k => [before sizes r k, before sizes (r + 1) k, before sizes sizes.length k]))) := by
  unfold generateOffsets
  rw [mpiScan_eq m sizes h, ok_bind, zip_map_range sizes []]
  have e1 : ((List.range sizes.length).map (fun r => (sizes.getD r [], vecFn m (fun k => before sizes (r + 1) k)))).mapM
      (fun p => offsetsLocal p.1 p.2)
      = .ok ((List.range sizes.length).map (fun r => vecFn m (fun k => [before sizes r k, before sizes (r + 1) k, 0]))) := by
    rw [List.mapM_map]
    apply mapM_ok
    intro r hr
    have hr' := List.mem_range.mp hr
    simp only [Function.comp]
    have hs : sizes.getD r [] = sizes[r] := by
      rw [List.getD_eq_getElem?_getD, List.getElem?_eq_getElem hr']; rfl
    rw [hs]
    conv_lhs => rw [eq_vecFn_vecAt sizes[r], h _ (List.getElem_mem hr')]
    rw [offsetsLocal_eq]
    congr 1
    apply vecFn_congr; intro k _ _
    rw [before_succ sizes r hr', add_sub_cancel_right]
  rw [e1, ok_bind, mpiBcastLast_eq, ok_bind]
  have e2 : ((List.range sizes.length).map (fun r => vecFn m (fun k => [before sizes r k, before sizes (r + 1) k, 0]))).zip
      ((List.range sizes.length).map (fun _ => vecFn m (fun k => before sizes (sizes.length - 1 + 1) k)))
      = (List.range sizes.length).map (fun r => (vecFn m (fun k => [before sizes r k, before sizes (r + 1) k, 0]),
          vecFn m (fun k => before sizes (sizes.length - 1 + 1) k))) := by
    rw [List.zip_map', ]
  rw [e2, zip_map_range sizes [], List.mapM_map]
  apply mapM_ok
  intro r hr
  have hr' := List.mem_range.mp hr
  simp only [Function.comp]
  have hs : sizes.getD r [] = sizes[r] := by
    rw [List.getD_eq_getElem?_getD, List.getElem?_eq_getElem hr']; rfl
  rw [hs, h _ (List.getElem_mem hr'), offsetsTotal_eq, Nat.sub_add_cancel (by omega)]

/-- **C63.**  On process `r`, component `k` of the offsets is `[start, end, total]`, where the start is the sum of the sizes on the
processes before `r`, the end is the start plus the own size, and the total is the sum of the sizes on all processes. -/
theorem C63_offsets (sizes : List (List Int)) (m : Nat) (h : ∀ s ∈ sizes, s.length = m) :
    ∃ out, generateOffsets sizes = .ok out ∧ out.length = sizes.length ∧
      ∀ (r : Nat) (hr : r < sizes.length), (out.getD r []).length = m ∧ ∀ (k : Nat), k < m →
        (out.getD r []).getD k [] = [((sizes.take r).map (fun s => s.getD k 0)).sum,
          ((sizes.take r).map (fun s => s.getD k 0)).sum + sizes[r].getD k 0, (sizes.map (fun s => s.getD k 0)).sum] := by
  refine ⟨_, generateOffsets_eq m sizes h, by simp, fun r hr => ?_⟩
  have e : ((List.range sizes.length).map (fun r =>
      vecFn m (fun k => [before sizes r k, before sizes (r + 1) k, before sizes sizes.length k]))).getD r []
      = vecFn m (fun k => [before sizes r k, before sizes (r + 1) k, before sizes sizes.length k]) := by
    simp [List.getD_eq_getElem?_getD, hr]
  rw [e]
  refine ⟨by simp, fun k hk => ?_⟩
  have hv : ∀ s : List Int, vecAt s (k : Int) = s.getD k 0 := fun s => by simp [vecAt]
  have e2 : (vecFn m (fun k => [before sizes r k, before sizes (r + 1) k, before sizes sizes.length k])).getD k []
      = [before sizes r k, before sizes (r + 1) k, before sizes sizes.length k] := by
    simp [vecFn, List.getD_eq_getElem?_getD, hk]
  rw [e2, before_succ sizes r hr]
  simp only [before, hv, List.take_length]

/-- C63: processes that pass different numbers of sizes make the collective call undefined. -/
theorem C63_mismatch (s t : List Int) (h : s.length ≠ t.length) : generateOffsets [s, t] = .error .undefinedBehaviour := by
  unfold generateOffsets mpiScan
  have : ([t].all (fun c => c.length == s.length)) = false := by simp; omega
  simp only [this]
  rfl

theorem generateOffsets1_eq (sizes : List Int) :
    generateOffsets1 sizes = .ok ((List.range sizes.length).map (fun r =>
      [(sizes.take r).sum, (sizes.take (r + 1)).sum, sizes.sum])) := by
  unfold generateOffsets1
  rw [generateOffsets_eq 1 _ (by simp), ok_bind, List.mapM_map, List.length_map]
  apply mapM_ok
  intro r hr
  have hr' := List.mem_range.mp hr
  have hb : ∀ q, before (sizes.map (fun n => [n])) q 0 = (sizes.take q).sum := by
    intro q
    unfold before
    rw [← List.map_take, List.map_map]
    congr 1
    conv_rhs => rw [← List.map_id (sizes.take q)]
    apply List.map_congr_left
    intro x _
    simp [vecAt]
  simp only [Function.comp]
  rw [cassert_true (by simp), ok_bind, rd_vecFn le_rfl (by decide), hb, hb, hb, List.take_length]

/-- **C63.**  For sizes that are not negative, the ranges of the processes are in rank order, follow each other without gap or
overlap, start at 0, end at the total and have the right lengths; so every index below the total belongs to exactly one process. -/
theorem C63_ranges (sizes : List Int) (h : ∀ n ∈ sizes, 0 ≤ n) :
    ∃ out : List (List Int), generateOffsets1 sizes = .ok out ∧ out.length = sizes.length ∧
      (∀ r, r < out.length → IsStarts (out.getD r []) (vecAt (out.getD r []) 0) (vecAt (out.getD r []) 1) sizes.sum) ∧
      (0 < out.length → vecAt (out.getD 0 []) 0 = 0 ∧ vecAt (out.getD (out.length - 1) []) 1 = sizes.sum) ∧
      (∀ r, r + 1 < out.length → vecAt (out.getD r []) 1 = vecAt (out.getD (r + 1) []) 0) ∧
      (∀ r (hr : r < sizes.length), vecAt (out.getD r []) 1 - vecAt (out.getD r []) 0 = sizes[r]) ∧
      (∀ g, 0 ≤ g → g < sizes.sum → ∃! r, r < out.length ∧ vecAt (out.getD r []) 0 ≤ g ∧ g < vecAt (out.getD r []) 1) := by
  refine ⟨_, generateOffsets1_eq sizes, by simp, ?_⟩
  have hg : ∀ r, r < sizes.length → ((List.range sizes.length).map (fun r =>
      [(sizes.take r).sum, (sizes.take (r + 1)).sum, sizes.sum])).getD r []
      = [(sizes.take r).sum, (sizes.take (r + 1)).sum, sizes.sum] := by
    intro r hr
    simp [List.getD_eq_getElem?_getD, hr]
  have h0 : ∀ a b c : Int, vecAt [a, b, c] 0 = a := fun a b c => by simp [vecAt]
  have h1 : ∀ a b c : Int, vecAt [a, b, c] 1 = b := fun a b c => by simp [vecAt]
  have hs : ∀ r (hr : r < sizes.length), (sizes.take (r + 1)).sum = (sizes.take r).sum + sizes[r] := by
    intro r hr
    rw [List.take_succ_eq_append_getElem hr, List.sum_append, List.sum_singleton]
  have mono : ∀ r q, r ≤ q → (sizes.take r).sum ≤ (sizes.take q).sum := by
    intro r q hrq
    induction q, hrq using Nat.le_induction with
    | base => exact le_rfl
    | succ q _ ih =>
      by_cases hq : q < sizes.length
      · rw [hs q hq]; have := h _ (List.getElem_mem hq); omega
      · rw [List.take_of_length_le (show sizes.length ≤ q + 1 by omega)]
        rwa [List.take_of_length_le (show sizes.length ≤ q by omega)] at ih
  have hlast : ∀ r, (sizes.take r).sum ≤ sizes.sum := fun r => by
    have := mono r (r + sizes.length) (by omega)
    rwa [List.take_of_length_le (show sizes.length ≤ r + sizes.length by omega)] at this
  simp only [List.length_map, List.length_range]
  refine ⟨fun r hr => ?_, fun hp => ?_, fun r hr => ?_, fun r hr => ?_, fun g g0 g1 => ?_⟩
  · rw [hg r hr, h0, h1]
    exact ⟨rfl, by simpa using mono 0 r (by omega), mono _ _ (by omega), hlast _⟩
  · rw [hg 0 hp, hg _ (by omega), h0, h1]
    refine ⟨by simp, ?_⟩
    rw [List.take_of_length_le (by omega)]
  · rw [hg r (by omega), hg (r + 1) hr, h0, h1]
  · rw [hg r hr, h0, h1, hs r hr]; ring
  · have hex : ∃ r, g < (sizes.take (r + 1)).sum := ⟨sizes.length, by rw [List.take_of_length_le (by omega)]; exact g1⟩
    classical
    let r := Nat.find hex
    have hr1 : g < (sizes.take (r + 1)).sum := Nat.find_spec hex
    have hr0 : (sizes.take r).sum ≤ g := by
      rcases Nat.eq_zero_or_pos r with hz | hz
      · rw [hz]; simpa using g0
      · have := Nat.find_min hex (show r - 1 < r by omega)
        rw [Nat.sub_add_cancel hz] at this
        omega
    have hr : r < sizes.length := by
      by_contra hc
      rw [List.take_of_length_le (by omega)] at hr0
      omega
    refine ⟨r, ⟨hr, ?_⟩, ?_⟩
    · rw [hg r hr, h0, h1]; exact ⟨hr0, hr1⟩
    · rintro q ⟨hq, hq2⟩
      rw [hg q hq, h0, h1] at hq2
      rcases lt_trichotomy q r with hc | hc | hc
      · have := mono (q + 1) r (by omega); omega
      · exact hc
      · have := mono (r + 1) q (by omega); omega

/-- C63: three processes, one of them without anything. -/
example : generateOffsets1 [2, 0, 3] = .ok [[0, 2, 5], [2, 2, 5], [2, 5, 5]] ∧
    generateOffsets [[2, 1], [0, 4]] = .ok [[[0, 2, 2], [0, 1, 5]], [[2, 2, 2], [1, 5, 5]]] := by decide

end Par
end Linalg
