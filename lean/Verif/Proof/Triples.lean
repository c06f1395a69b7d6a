import Verif.Proof.Sums

/-! # Stored triples: sums and the transposed product -/

namespace Linalg
open Cpp

variable {α β σ R : Type}

theorem triplesL_concat (rs : List (List (Int × α))) (r : List (Int × α)) :
    triplesL (rs ++ [r]) = triplesL rs ++ r.map (fun e => ((rs.length : Int), e.1, e.2)) := by
  simp [triplesL, List.zipIdx_append]

theorem rowCoef_eq_sum_ite [AddMonoid R] (r : List (Int × R)) (j : Int) :
    rowCoef r j = (r.map (fun e => if e.1 = j then e.2 else 0)).sum := by
  induction r with
  | nil => rfl
  | cons e r ih => rw [rowCoef_cons, ih]; simp

theorem sum_triplesL [AddCommMonoid R] (rs : List (List (Int × α))) (h : Int → Int × α → R) :
    ((triplesL rs).map (fun t => h t.1 t.2)).sum
      = ∑ i ∈ Finset.Ico 0 (rs.length : Int), ((rs.getD i.toNat []).map (h i)).sum := by
  induction rs using List.reverseRecOn with
  | nil => simp [triplesL]
  | append_singleton rs r ih =>
    rw [triplesL_concat, List.map_append, List.sum_append, ih]
    have e : Finset.Ico (0 : Int) ((rs ++ [r]).length : Int)
        = insert (rs.length : Int) (Finset.Ico 0 (rs.length : Int)) := by
      ext x; simp only [Finset.mem_Ico, Finset.mem_insert, List.length_append, List.length_singleton]
      omega
    rw [e, Finset.sum_insert (by simp), add_comm]
    congr 1
    · simp [List.map_map, Function.comp_def]
    · apply Finset.sum_congr rfl
      intro i hi
      simp only [Finset.mem_Ico] at hi
      rw [List.getD_eq_getElem?_getD, List.getD_eq_getElem?_getD, List.getElem?_append_left (by omega)]

theorem row_ofRows_getD (n : Int) (rs : List (List (Int × α))) {i : Int} (h0 : 0 ≤ i) :
    (Csr.ofRows n rs).row i = rs.getD i.toNat [] := by
  by_cases h : i < rs.length
  · obtain ⟨k, rfl⟩ : ∃ k : Nat, i = (k : Int) := ⟨i.toNat, by omega⟩
    have hk : k < rs.length := by exact_mod_cast h
    rw [Csr.row_ofRows n rs k hk]; simp [hk]
  · rw [Csr.row_ge _ (by simp [Csr.ofRows]) (by simp only [Csr.ofRows]; omega)]
    rw [List.getD_eq_getElem?_getD, List.getElem?_eq_none (by omega)]; rfl

theorem coef_ofRows_getD [AddMonoid R] (n : Int) (rs : List (List (Int × R))) {i : Int} (h0 : 0 ≤ i)
    (j : Int) : (Csr.ofRows n rs).coef i j = rowCoef (rs.getD i.toNat []) j := by
  rw [Csr.coef_eq, row_ofRows_getD n rs h0]

theorem rowCoef_scatter [NonUnitalNonAssocSemiring R] (n : Int) (rs : List (List (Int × R)))
    (f : Int → R) (j : Int) :
    rowCoef ((triplesL rs).map (fun t => (t.2.1, t.2.2 * f t.1))) j
      = ∑ i ∈ Finset.Ico 0 (rs.length : Int), (Csr.ofRows n rs).coef i j * f i := by
  rw [rowCoef_eq_sum_ite, List.map_map]
  have := sum_triplesL rs (fun i e => if e.1 = j then e.2 * f i else (0 : R))
  simp only [Function.comp_def]
  rw [this]
  apply Finset.sum_congr rfl
  intro i hi
  simp only [Finset.mem_Ico] at hi
  rw [coef_ofRows_getD n rs hi.1, rowCoef_eq_sum_ite, ← List.sum_map_mul_right]
  congr 1
  apply List.map_congr_left
  intro e _
  split <;> simp

theorem multAT_ofRows [NonUnitalNonAssocSemiring R] {n : Int} {rs : List (List (Int × R))}
    (h : ∀ r ∈ rs, ∀ e ∈ r, 0 ≤ e.1 ∧ e.1 < n) (x y : List R)
    (hx : x.length = rs.length) (hy : (y.length : Int) = n) :
    ∃ y', (Csr.ofRows n rs).multAT x y = .ok y' ∧ (y'.length : Int) = n ∧
      ∀ j, 0 ≤ j → j < n → rd y' j = .ok ((Csr.ofRows n rs).tMulVec x j) := by
  unfold Csr.multAT
  rw [cassert_true (by simpa [Csr.ofRows] using hx), cassert_true (by exact hy)]
  simp only [ok_bind]
  rw [rowLoop_ofRows n rs _ _ (fun i e (out : List R) => do
    let old ← vrd out e.1
    vwr out e.1 (old + e.2 * vecAt x i))]
  · have hm := List.foldlM_map (f := fun t : Int × Int × R => (t.2.1, t.2.2 * vecAt x t.1))
      (g := fun (out : List R) (e : Int × R) => (do
        let old ← vrd out e.1
        vwr out e.1 (old + e.2) : Res (List R))) (l := triplesL rs)
      (init := List.replicate y.length (0 : R))
    simp only at hm
    rw [← hm]
    obtain ⟨y', h1, h2, h3⟩ := scatter_add
      ((triplesL rs).map (fun t => (t.2.1, t.2.2 * vecAt x t.1))) (List.replicate y.length (0 : R)) (by
        intro e he
        rw [List.mem_map] at he
        obtain ⟨t, ht, rfl⟩ := he
        obtain ⟨k, hk, -, ht2⟩ := mem_triplesL.mp ht
        have := h _ (List.getElem_mem hk) _ ht2
        simp; omega)
    refine ⟨y', h1, ?_, ?_⟩
    · simp only [h2, List.length_replicate]; exact hy
    · intro j hj0 hj
      rw [rd_eq_ok]
      refine ⟨hj0, ?_⟩
      obtain ⟨a, ha1, ha2⟩ := h3 j.toNat (by simp; omega)
      rw [List.getElem?_replicate, if_pos (by omega)] at ha1
      rw [ha2, ← Option.some.inj ha1, zero_add]
      have : ((j.toNat : Nat) : Int) = j := by omega
      rw [this, rowCoef_scatter n rs]
      rfl
  · intro k m hk hm s
    rw [rd_data_ofRows n rs k m hk hm, rd_indices_ofRows n rs k m hk hm]
    simp only [ok_bind]
    rw [vrd_vecAt x (by omega) (by omega)]
    rfl

end Linalg
