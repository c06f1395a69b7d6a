import Verif.Proof.InPlace

/-! # Sorting segments of a permutation: helper lemmas for SortIndices -/

namespace Linalg
open Cpp

variable {α β γ σ : Type}

/-- Consecutive positions, grouped like the rows. -/
def segsFrom : Nat → List (List β) → List (List Int)
  | _, [] => []
  | b, r :: rs => (List.range r.length).map (fun m : Nat => ((b + m : Nat) : Int)) ::
      segsFrom (b + r.length) rs

theorem segsFrom_lengths (b : Nat) (rs : List (List β)) :
    (segsFrom b rs).map List.length = rs.map List.length := by
  induction rs generalizing b with
  | nil => rfl
  | cons r rs ih => simp [segsFrom, ih]

theorem segsFrom_length (b : Nat) (rs : List (List β)) : (segsFrom b rs).length = rs.length := by
  have := congrArg List.length (segsFrom_lengths b rs)
  simpa using this

theorem segsFrom_flatten (b : Nat) (rs : List (List β)) :
    (segsFrom b rs).flatten = (List.range' b rs.flatten.length).map (fun k : Nat => (k : Int)) := by
  induction rs generalizing b with
  | nil => rfl
  | cons r rs ih =>
    simp only [segsFrom, List.flatten_cons, ih, List.length_append]
    rw [← List.range'_append_1, List.map_append]
    congr 1
    rw [List.range'_eq_map_range, List.map_map]
    rfl

theorem segsFrom_flatten_zero (rs : List (List β)) :
    (segsFrom 0 rs).flatten = iota rs.flatten.length := by
  rw [segsFrom_flatten, iota, List.range_eq_range']
  rfl

/-- Looking up the positions of a segment gives back the row. -/
theorem segsFrom_look (pre : List β) (rs : List (List β)) :
    (segsFrom pre.length rs).map (fun seg => seg.map (fun p => (pre ++ rs.flatten)[p.toNat]?))
      = rs.map (fun r => r.map some) := by
  induction rs generalizing pre with
  | nil => rfl
  | cons r rs ih =>
    simp only [segsFrom, List.map_cons, List.flatten_cons]
    congr 1
    · rw [List.map_map]
      apply List.ext_getElem
      · simp
      · intro k h1 h2
        have hk : k < r.length := by simpa using h1
        simp only [List.getElem_map, List.getElem_range, Function.comp_def, Int.toNat_natCast]
        rw [List.getElem?_append_right (by omega), Nat.add_sub_cancel_left,
          List.getElem?_append_left hk, List.getElem?_eq_getElem hk]
    · have := ih (pre ++ r)
      rw [List.length_append] at this
      simpa [List.append_assoc] using this

theorem mapM_ok_map {l : List β} {f : β → Res γ} {g : β → γ} (h : ∀ x ∈ l, f x = .ok (g x)) :
    l.mapM f = .ok (l.map g) := by
  induction l with
  | nil => rfl
  | cons x l ih =>
    rw [List.mapM_cons, h x (by simp), ok_bind, ih (fun y hy => h y (by simp [hy]))]
    rfl

theorem mapM_filterMap {δ : Type} {l : List β} {f : β → Res γ} {look : β → Option δ} {g : δ → γ}
    (h : ∀ x ∈ l, ∃ e, look x = some e ∧ f x = .ok (g e)) :
    l.mapM f = .ok ((l.filterMap look).map g) := by
  induction l with
  | nil => rfl
  | cons x l ih =>
    obtain ⟨e, h1, h2⟩ := h x (by simp)
    rw [List.mapM_cons, h2, ok_bind, ih (fun y hy => h y (by simp [hy])), List.filterMap_cons, h1]
    rfl

theorem foldlM_ok_of {l : List β} {f : σ → β → Res σ} (h : ∀ x ∈ l, ∀ s, ∃ s', f s x = .ok s')
    (s : σ) : ∃ s', l.foldlM f s = .ok s' := by
  induction l generalizing s with
  | nil => exact ⟨s, rfl⟩
  | cons x l ih =>
    obtain ⟨s', h1⟩ := h x (by simp) s
    rw [List.foldlM_cons, h1, ok_bind]
    exact ih (fun y hy => h y (by simp [hy])) s'

theorem slice_flatten (ls : List (List β)) (k : Nat) (h : k < ls.length) :
    Csr.slice ls.flatten (((ls.take k).flatten.length : Nat) : Int)
      (((ls.take k).flatten.length + ls[k].length : Nat) : Int) = .ok ls[k] := by
  unfold Csr.slice
  have h1 : ls.flatten = (ls.take k).flatten ++ (ls[k] ++ (ls.drop (k + 1)).flatten) := by
    rw [← List.flatten_cons, ← List.drop_eq_getElem_cons h, ← List.flatten_append, List.take_append_drop]
  rw [if_pos]
  · congr 1
    have e1 : (((ls.take k).flatten.length + ls[k].length : Nat) : Int)
        - (((ls.take k).flatten.length : Nat) : Int) = ((ls[k].length : Nat) : Int) := by omega
    rw [e1, Int.toNat_natCast, Int.toNat_natCast, flatten_drop_take ls k h]
  · have : ls.flatten.length = (ls.take k).flatten.length + (ls[k].length + (ls.drop (k + 1)).flatten.length) := by
      rw [← List.length_append, ← List.length_append, ← h1]
    refine ⟨by omega, by omega, by omega⟩

theorem replace_flatten (ls : List (List β)) (k : Nat) (h : k < ls.length) (x : List β) :
    ls.flatten.take ((ls.take k).flatten.length) ++ x
      ++ ls.flatten.drop ((ls.take k).flatten.length + ls[k].length)
      = (ls.take k ++ x :: ls.drop (k + 1)).flatten := by
  have h1 : ls.flatten = (ls.take k).flatten ++ (ls[k] ++ (ls.drop (k + 1)).flatten) := by
    rw [← List.flatten_cons, ← List.drop_eq_getElem_cons h, ← List.flatten_append, List.take_append_drop]
  rw [h1, List.take_left, ← List.append_assoc (ls.take k).flatten, List.drop_left' (by rw [List.length_append])]
  simp

end Linalg
