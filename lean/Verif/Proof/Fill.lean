import Verif.Proof.Filter

/-! # Filling preallocated CSR arrays front to back: helper lemmas -/

namespace Linalg
open Cpp

variable {α β σ : Type}

theorem wr_at {xs ys : List β} {y v : β} {p : Int} (hp : p = (xs.length : Int)) :
    wr (xs ++ y :: ys) p v = .ok (xs ++ v :: ys) := by
  subst hp
  rw [wr_nat (by simp), List.set_append_right _ _ (by omega)]
  simp

theorem rd_at {xs ys : List β} {y : β} {p : Int} (hp : p = (xs.length : Int)) :
    rd (xs ++ y :: ys) p = .ok y := by
  subst hp
  rw [rd_nat (by simp)]
  simp

/-- A buffer of size `N` whose first elements are `D` and whose rest is still `z`. -/
def padTo (N : Nat) (z : β) (D : List β) : List β := D ++ List.replicate (N - D.length) z

theorem padTo_nil (N : Nat) (z : β) : padTo N z [] = List.replicate N z := by simp [padTo]

theorem padTo_full {N : Nat} {z : β} {D : List β} (h : D.length = N) : padTo N z D = D := by
  simp [padTo, h]

theorem length_padTo {N : Nat} {z : β} {D : List β} (h : D.length ≤ N) : (padTo N z D).length = N := by
  simp [padTo]; omega

theorem wr_padTo {N : Nat} {z v : β} {D : List β} (h : D.length < N) {p : Int}
    (hp : p = (D.length : Int)) : wr (padTo N z D) p v = .ok (padTo N z (D ++ [v])) := by
  unfold padTo
  obtain ⟨k, hk⟩ : ∃ k, N - D.length = k + 1 := ⟨N - D.length - 1, by omega⟩
  have hk' : N - (D ++ [v]).length = k := by simp; omega
  rw [hk, List.replicate_succ, wr_at hp, hk']
  simp

theorem rd_padTo {N : Nat} {z : β} {D : List β} {k : Nat} (h : k < D.length) :
    rd (padTo N z D) (k : Int) = .ok D[k] := by
  unfold padTo
  rw [rd_nat (by simp; omega), List.getElem_append_left h]

theorem wr_padTo_set {N : Nat} {z v : β} {D : List β} {k : Nat} (h : k < D.length) :
    wr (padTo N z D) (k : Int) v = .ok (padTo N z (D.set k v)) := by
  unfold padTo
  rw [wr_nat (by simp; omega), List.set_append_left _ _ h]
  simp

theorem ptrs_nil : ptrs ([] : List (List β)) = [0] := rfl

theorem take_succ_eq {l : List β} {k : Nat} (h : k < l.length) : l.take (k + 1) = l.take k ++ [l[k]] :=
  List.take_succ_eq_append_getElem h

/-- Writing the next row pointer of a partially built `indptr`. -/
theorem wr_ptrs {N : Nat} (rs : List (List β)) {k : Nat} (hk : k < rs.length) (hN : rs.length < N) :
    wr (padTo N 0 (ptrs (rs.take k))) ((k : Int) + 1) (((rs.take (k + 1)).flatten.length : Nat) : Int)
      = .ok (padTo N 0 (ptrs (rs.take (k + 1)))) := by
  have hl : (ptrs (rs.take k)).length = k + 1 := by simp; omega
  rw [wr_padTo (by omega) (by rw [hl]; push_cast; rfl)]
  congr 2
  have e : (((rs.take (k + 1)).flatten.length : Nat) : Int)
      = (((rs.take k).flatten.length : Nat) : Int) + ((rs[k].length : Nat) : Int) := by
    rw [take_succ_eq hk, List.flatten_append, List.length_append]
    simp [-List.length_flatten]
  rw [e, take_succ_eq hk, ptrs_concat]
  simp [-List.length_flatten]

theorem ptrs_zero_pad (N : Nat) (hN : 0 < N) : List.replicate N (0 : Int) = padTo N 0 (ptrs ([] : List (List β))) := by
  obtain ⟨k, rfl⟩ : ∃ k, N = k + 1 := ⟨N - 1, by omega⟩
  rw [ptrs_nil]
  simp [padTo, List.replicate_succ]

end Linalg
