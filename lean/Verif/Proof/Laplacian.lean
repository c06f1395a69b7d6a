import Verif.Model.PowerIter
import Verif.Spec.Laplacian
import Verif.Proof.InPlace
import Mathlib.Algebra.Ring.Defs
import Mathlib.Tactic.Ring

/-! # AdjToLaplacian, row by row -/

namespace Linalg
open Cpp

variable {R : Type}

namespace Example

/-- The new value of an entry of row `i`. -/
def lapVal [Ring R] (r : List (Int × R)) (i : Int) (e : Int × R) : R :=
  if e.1 = i then ((r.filter (fun e => e.1 ≠ i)).length : R) else -1

/-- The inner loop. -/
theorem lapLoop [Ring R] (A : Csr R) (i : Int) (r : List (Int × R)) (P S : List R)
    (hi : ∀ (m : Nat) (hm : m < r.length), rd A.indices ((P.length + m : Nat) : Int) = .ok r[m].1) :
    ∃ s, forUp (P.length : Int) ((P.length + r.length : Nat) : Int) ((-1 : Int), (0 : R), P ++ r.map Prod.snd ++ S) (fun j s => do
        let col ← rd A.indices j
        if col = i then .ok (j, s.2.1, s.2.2)
        else do
          let data ← wr s.2.2 j (-1)
          .ok (s.1, s.2.1 + 1, data)) = .ok s ∧
      s.2.1 = ((r.filter (fun e => e.1 ≠ i)).length : R) ∧
      s.2.2 = P ++ r.map (fun e => if e.1 = i then e.2 else -1) ++ S ∧
      ((s.1 = -1 ∧ ∀ e ∈ r, e.1 ≠ i) ∨ ∃ (q : Nat) (hq : q < r.length), s.1 = ((P.length + q : Nat) : Int) ∧ r[q].1 = i) := by
  obtain ⟨s, h1, m, hm0, hm1, h2, h3, h4⟩ := forUp_inv (a := (P.length : Int)) (b := ((P.length + r.length : Nat) : Int)) (by omega)
    (f := fun j (s : Int × R × List R) => (do
        let col ← rd A.indices j
        if col = i then .ok (j, s.2.1, s.2.2)
        else do
          let data ← wr s.2.2 j (-1)
          .ok (s.1, s.2.1 + 1, data)))
    (fun j s => ∃ m : Nat, j = ((P.length + m : Nat) : Int) ∧ m ≤ r.length ∧ s.2.1 = (((r.take m).filter (fun e => e.1 ≠ i)).length : R) ∧
      s.2.2 = P ++ ((r.take m).map (fun e => if e.1 = i then e.2 else -1) ++ (r.drop m).map Prod.snd) ++ S ∧
      ((s.1 = -1 ∧ ∀ e ∈ r.take m, e.1 ≠ i) ∨ ∃ (q : Nat) (hq : q < r.length), q < m ∧ s.1 = ((P.length + q : Nat) : Int) ∧ r[q].1 = i))
    (s := ((-1 : Int), (0 : R), P ++ r.map Prod.snd ++ S))
    ⟨0, by simp, Nat.zero_le _, by simp, by simp, Or.inl ⟨rfl, by simp⟩⟩ (by
      rintro j ⟨dg, v, data⟩ j0 j1 ⟨m, rfl, m0, hv, hd, hg⟩
      have hm : m < r.length := by omega
      dsimp only at hv hd hg ⊢
      rw [hi m hm, ok_bind]
      have ht : r.take (m + 1) = r.take m ++ [r[m]] := by rw [List.take_succ_eq_append_getElem hm]
      have hdr : r.drop m = r[m] :: r.drop (m + 1) := List.drop_eq_getElem_cons hm
      by_cases he : r[m].1 = i
      · rw [if_pos he]
        refine ⟨_, rfl, m + 1, by omega, by omega, ?_, ?_, Or.inr ⟨m, hm, by omega, rfl, he⟩⟩
        · dsimp only
          rw [hv, ht, List.filter_append]
          simp [he]
        · dsimp only
          rw [hd, ht, hdr]
          simp only [List.map_append, List.map_cons, List.map_nil, if_pos he, List.append_assoc, List.cons_append, List.nil_append]
      · rw [if_neg he, hd]
        have hw : wr (P ++ ((r.take m).map (fun e => if e.1 = i then e.2 else -1) ++ (r.drop m).map Prod.snd) ++ S) ((P.length + m : Nat) : Int) (-1 : R)
            = .ok (P ++ ((r.take (m + 1)).map (fun e => if e.1 = i then e.2 else -1) ++ (r.drop (m + 1)).map Prod.snd) ++ S) := by
          rw [wr_nat (by simp; omega)]
          congr 1
          have hl : ((r.take m).map (fun e => if e.1 = i then e.2 else (-1 : R))).length = m := by simp; omega
          rw [hdr, ht, List.map_append, List.map_cons, List.append_assoc, List.append_assoc,
            List.set_append_right _ _ (by omega), Nat.add_sub_cancel_left, List.set_append_right _ _ (by omega), hl, Nat.sub_self]
          simp [he]
        rw [hw]
        refine ⟨_, rfl, m + 1, by omega, by omega, ?_, rfl, ?_⟩
        · dsimp only
          rw [hv, ht, List.filter_append]
          simp [he]
        · rcases hg with ⟨g1, g2⟩ | ⟨q, hq, q1, q2, q3⟩
          · left
            refine ⟨g1, ?_⟩
            rw [ht]
            intro e hm'
            rcases List.mem_append.mp hm' with h | h
            · exact g2 e h
            · rw [List.mem_singleton.mp h]; exact he
          · exact Or.inr ⟨q, hq, by omega, q2, q3⟩)
  have hmr : m = r.length := by omega
  subst hmr
  rw [List.take_length] at h2 h3 h4
  rw [List.drop_length, List.map_nil, List.append_nil] at h3
  refine ⟨s, h1, h2, h3, ?_⟩
  rcases h4 with h | ⟨q, hq, _, q2, q3⟩
  · exact Or.inl h
  · exact Or.inr ⟨q, hq, q2, q3⟩

/-- One row. -/
theorem lapRow_ok [Ring R] (n : Int) (rs : List (List (Int × R))) (k : Nat) (hk : k < rs.length) (P S : List R)
    (hP : P.length = (rs.take k).flatten.length) :
    ((rs[k].map Prod.fst).Nodup → (∃ e ∈ rs[k], e.1 = (k : Int)) →
      lapRow (Csr.ofRows n rs) k (P ++ rs[k].map Prod.snd ++ S) = .ok (P ++ rs[k].map (lapVal rs[k] k) ++ S)) ∧
    ((∀ e ∈ rs[k], e.1 ≠ (k : Int)) → lapRow (Csr.ofRows n rs) k (P ++ rs[k].map Prod.snd ++ S) = .error .assertFail) := by
  obtain ⟨s, h1, h2, h3, h4⟩ := lapLoop (Csr.ofRows n rs) (k : Int) rs[k] P S (by
    intro m hm
    rw [hP]
    exact rd_indices_ofRows n rs k m hk hm)
  have hf : lapRow (Csr.ofRows n rs) k (P ++ rs[k].map Prod.snd ++ S) = (do
      cassert (s.1 ≥ 0)
      wr s.2.2 s.1 s.2.1) := by
    unfold lapRow Csr.forRow
    have e1 : rd (Csr.ofRows n rs).indptr (k : Int) = _ := rd_ptrs rs k hk.le
    have e2 : rd (Csr.ofRows n rs).indptr ((k : Int) + 1) = _ := rd_ptrs_succ rs k hk
    rw [e1, ok_bind, e2, ok_bind, ← hP, h1, ok_bind]
  rw [hf]
  constructor
  · intro hnd ⟨e, he, hek⟩
    rcases h4 with ⟨_, h⟩ | ⟨q, hq, q2, q3⟩
    · exact absurd hek (h e he)
    rw [q2, cassert_true (by omega), ok_bind, h3, h2, wr_nat (by simp; omega)]
    congr 1
    rw [List.append_assoc, List.append_assoc, List.set_append_right _ _ (by omega), Nat.add_sub_cancel_left,
      List.set_append_left _ _ (by simpa using hq)]
    congr 2
    apply List.ext_getElem (by simp)
    intro t t1 t2
    simp only [List.length_map] at t2
    rw [List.getElem_set, List.getElem_map, List.getElem_map]
    unfold lapVal
    by_cases htq : q = t
    · subst htq
      rw [if_pos rfl, if_pos q3]
    · rw [if_neg htq]
      have : rs[k][t].1 ≠ (k : Int) := by
        intro hh
        have e : (rs[k].map Prod.fst)[q]'(by simpa using hq) = (rs[k].map Prod.fst)[t]'(by simpa using t2) := by
          rw [List.getElem_map, List.getElem_map, q3, hh]
        exact htq ((List.Nodup.getElem_inj_iff hnd).mp e)
      rw [if_neg this, if_neg this]
  · intro h
    rcases h4 with ⟨h, _⟩ | ⟨q, hq, q2, q3⟩
    · rw [h, cassert_false (by omega)]
      rfl
    · exact absurd q3 (h _ (List.getElem_mem hq))

/-- The new rows. -/
def lapRows [Ring R] (rs : List (List (Int × R))) : List (List (Int × R)) :=
  mapRows (fun i e => lapVal (rs.getD i.toNat []) i e) rs

/-- The values when `k` rows are done. -/
theorem lap_split [Ring R] (rs : List (List (Int × R))) (k : Nat) (hk : k < rs.length) :
    ((lapRows rs).take k ++ rs.drop k).flatten.map Prod.snd
      = ((lapRows rs).take k).flatten.map Prod.snd ++ rs[k].map Prod.snd ++ (rs.drop (k + 1)).flatten.map Prod.snd ∧
    ((lapRows rs).take (k + 1) ++ rs.drop (k + 1)).flatten.map Prod.snd
      = ((lapRows rs).take k).flatten.map Prod.snd ++ rs[k].map (lapVal rs[k] k) ++ (rs.drop (k + 1)).flatten.map Prod.snd := by
  have hk' : k < (lapRows rs).length := by simpa [lapRows] using hk
  constructor
  · rw [List.drop_eq_getElem_cons hk]
    simp only [List.flatten_append, List.flatten_cons, List.map_append, List.append_assoc]
  · rw [List.take_succ_eq_append_getElem hk']
    have : (lapRows rs)[k].map Prod.snd = rs[k].map (lapVal rs[k] k) := by
      have e : (lapRows rs)[k] = _ := getElem_mapRows (fun i e => lapVal (rs.getD i.toNat []) i e) rs k hk'
      rw [e, List.map_map]
      apply List.map_congr_left
      intro e _
      simp [hk]
    rw [List.flatten_append, List.flatten_append, List.map_append, List.map_append]
    simp only [List.flatten_cons, List.flatten_nil, List.append_nil, this]

theorem lap_pos [Ring R] (rs : List (List (Int × R))) (k : Nat) :
    (((lapRows rs).take k).flatten.map Prod.snd).length = (rs.take k).flatten.length := by
  rw [List.length_map]
  apply flatten_take_length_congr
  apply List.ext_getElem
  · simp [lapRows]
  · intro j h1 h2
    simp [lapRows, mapRows]

end Example
end Linalg
