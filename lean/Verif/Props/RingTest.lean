import Verif.Spec.RingTest
import Verif.Spec.Laplacian
import Verif.Model.RingTest
import Verif.Props.Coo
import Verif.Props.SparseMore
import Verif.Props.SparseUpdate
import Verif.Props.SparseSolve
import Verif.Props.SparseVector
import Verif.Props.Vector
import Verif.Props.Partition
import Verif.Proof.PowerIter
import Verif.Proof.Examples
import Mathlib.LinearAlgebra.Matrix.ToLinearEquiv
import Mathlib.Analysis.Real.Sqrt

/-!
# The test of the direct solver (C116)
-/

namespace Linalg
open Cpp

variable {R K S N : Type}

namespace RingTest

theorem emod_add {n a s : Int} (h0 : 0 ≤ a) (h1 : a < n) (s0 : 0 ≤ s) (s1 : s < n) :
    (a + s) % n = if a + s < n then a + s else a + s - n := by
  split
  · exact Int.emod_eq_of_lt (by omega) (by omega)
  · rw [← Int.sub_emod_right]; exact Int.emod_eq_of_lt (by omega) (by omega)

theorem emod_sub {n a b : Int} (a0 : 0 ≤ a) (a1 : a < n) (b0 : 0 ≤ b) (b1 : b < n) :
    (b - a) % n = if a ≤ b then b - a else b - a + n := by
  split
  · exact Int.emod_eq_of_lt (by omega) (by omega)
  · rw [← Int.add_emod_right]; exact Int.emod_eq_of_lt (by omega) (by omega)

/-- What one pass of the outer loop adds. -/
def rowAdds [NatCast R] [One R] [Neg R] (n k : Nat) (i : Int) : List (Int × Int × R) :=
  (i, i, ((2 * k : Nat) : R)) :: (iota k).flatMap (fun t => [(i, (i + 1 + t) % n, (-1 : R)), ((i + 1 + t) % n, i, -1)])

theorem addSym_new (C : Coo R) (hs : C.sizeSet = false) {i j : Int} (hi : 0 ≤ i) (hj : 0 ≤ j) (v : R) :
    C.addSym i j v = .ok { C with entries := C.entries ++ (if i = j then [(i, j, v)] else [(i, j, v), (j, i, v)]) } := by
  by_cases h : i = j
  · subst h; simp [Coo.addSym, Coo.add, hs, hi, cassert, ok_bind]
  · simp [Coo.addSym, Coo.add, hs, hi, hj, h, cassert, ok_bind]

theorem ringRow_eq [NatCast R] [One R] [Neg R] (n k : Nat) (hk : 2 * k < n) (i : Int) (i0 : 0 ≤ i) (i1 : i < n) (C : Coo R) (hs : C.sizeSet = false) :
    ringRow n k i C = .ok { C with entries := C.entries ++ rowAdds n k i } := by
  unfold ringRow
  rw [addSym_new C hs i0 i0, if_pos rfl, ok_bind]
  obtain ⟨T, hT⟩ : ∃ T : Int → Coo R, T = fun j => { C with entries := C.entries ++ ((i, i, ((2 * k : Nat) : R)) ::
    (iota (j - (i + 1)).toNat).flatMap (fun t => [(i, (i + 1 + t) % n, (-1 : R)), ((i + 1 + t) % n, i, -1)])) } := ⟨_, rfl⟩
  have e0 : ({ C with entries := C.entries ++ [(i, i, ((2 * k : Nat) : R))] } : Coo R) = T (i + 1) := by rw [hT]; simp [iota]
  have e1 : ({ C with entries := C.entries ++ rowAdds n k i } : Coo R) = T (i + k + 1) := by
    rw [hT]
    simp only [rowAdds, show (i + k + 1 - (i + 1) : Int).toNat = k by omega]
  rw [e0, e1]
  refine forUp_seq' (by omega) T ?_
  intro j h0 h1
  have hm : j % n = if j < n then j else j - n := by
    have := emod_add (n := n) (a := i) (s := j - i) i0 i1 (by omega) (by omega)
    rw [show i + (j - i) = j by ring] at this
    exact this
  have hne : i ≠ j % n := by rw [hm]; split <;> omega
  have hj0 : 0 ≤ j % n := Int.emod_nonneg _ (by omega)
  rw [addSym_new (T j) (by rw [hT]; exact hs) i0 hj0, if_neg hne, hT]
  dsimp only
  rw [show (j + 1 - (i + 1)).toNat = (j - (i + 1)).toNat + 1 by omega, iota_succ, List.flatMap_append,
    show (((j - (i + 1)).toNat : Nat) : Int) = j - (i + 1) by omega]
  simp only [List.flatMap_cons, List.flatMap_nil, List.append_nil, List.append_assoc, List.cons_append,
    show i + 1 + (j - (i + 1)) = j by ring]

/-- All that is added. -/
def allAdds [NatCast R] [One R] [Neg R] (n k : Nat) : List (Int × Int × R) := (iota n).flatMap (rowAdds n k)

theorem loop_eq [NatCast R] [One R] [Neg R] (n k : Nat) (hk : 2 * k < n) :
    forUp 0 (n : Int) (Coo.new : Coo R) (fun i C => ringRow n k i C) = .ok ⟨0, 0, false, allAdds n k⟩ := by
  obtain ⟨T, hT⟩ : ∃ T : Int → Coo R, T = fun j => ⟨0, 0, false, (iota j.toNat).flatMap (rowAdds n k)⟩ := ⟨_, rfl⟩
  have e0 : (Coo.new : Coo R) = T 0 := by rw [hT]; rfl
  have e1 : (⟨0, 0, false, allAdds n k⟩ : Coo R) = T n := by rw [hT]; rfl
  rw [e0, e1]
  refine forUp_seq (by omega) T ?_
  intro j h0 h1
  rw [ringRow_eq n k hk j h0 h1 _ (by rw [hT]), hT]
  dsimp only
  rw [show (j + 1).toNat = j.toNat + 1 by omega, iota_succ, List.flatMap_append, show ((j.toNat : Nat) : Int) = j by omega]
  simp

theorem step_iff {n k a b : Int} (hk : 2 * k < n) (a0 : 0 ≤ a) (a1 : a < n) (b0 : 0 ≤ b) (b1 : b < n) (t : Int) (t0 : 0 ≤ t) (t1 : t < k) :
    (a + 1 + t) % n = b ↔ t = (b - a) % n - 1 := by
  rw [show a + 1 + t = a + (1 + t) by ring, emod_add a0 a1 (by omega) (by omega), emod_sub a0 a1 b0 b1]
  split <;> split <;> omega

theorem sum_steps [CommRing R] (n k : Nat) (hk : 2 * k < n) (a b : Int) (a0 : 0 ≤ a) (a1 : a < n) (b0 : 0 ≤ b) (b1 : b < n) :
    ∑ t ∈ Finset.Ico (0 : Int) k, (if (a + 1 + t) % n = b then (-1 : R) else 0) = if a ≠ b ∧ (b - a) % n ≤ k then -1 else 0 := by
  have h : ∀ t ∈ Finset.Ico (0 : Int) k, (if (a + 1 + t) % n = b then (-1 : R) else 0) = if t = (b - a) % n - 1 then -1 else 0 := by
    intro t ht
    rw [Finset.mem_Ico] at ht
    simp only [step_iff (n := n) (k := k) (by omega) a0 a1 b0 b1 t ht.1 ht.2]
  rw [Finset.sum_congr rfl h, Finset.sum_ite_eq']
  have := emod_sub a0 a1 b0 b1
  congr 1
  simp only [Finset.mem_Ico, eq_iff_iff]
  split at this <;> omega

theorem ringCoef_eq [CommRing R] (n k : Nat) (hk : 2 * k < n) (a b : Int) (a0 : 0 ≤ a) (a1 : a < n) (b0 : 0 ≤ b) (b1 : b < n) :
    (ringCoef n k a b : R) = (if a = b then ((2 * k : Nat) : R) else 0)
      + ∑ t ∈ Finset.Ico (0 : Int) k, (if (a + 1 + t) % n = b then (-1 : R) else 0)
      + ∑ t ∈ Finset.Ico (0 : Int) k, (if (b + 1 + t) % n = a then (-1 : R) else 0) := by
  rw [sum_steps n k hk a b a0 a1 b0 b1, sum_steps n k hk b a b0 b1 a0 a1]
  unfold ringCoef Near
  by_cases hab : a = b
  · simp [hab]
  · have e1 := emod_sub a0 a1 b0 b1
    have e2 := emod_sub b0 b1 a0 a1
    simp only [hab, Ne.symm hab, if_false, zero_add, ne_eq, not_false_eq_true, true_and]
    by_cases h1 : (b - a) % (n : Int) ≤ k
    · have h2 : ¬ (a - b) % (n : Int) ≤ k := by split at e1 <;> split at e2 <;> omega
      simp [h1, h2]
    · simp [h1]

theorem coef_allAdds [CommRing R] (n k : Nat) (hk : 2 * k < n) (a b : Int) (a0 : 0 ≤ a) (a1 : a < n) (b0 : 0 ≤ b) (b1 : b < n) :
    tripleCoef (allAdds n k : List (Int × Int × R)) a b = ringCoef n k a b := by
  have hrow : ∀ i ∈ Finset.Ico (0 : Int) n, tripleCoef (rowAdds n k i : List (Int × Int × R)) a b
      = (if i = a then (if a = b then ((2 * k : Nat) : R) else 0) + (if a ≠ b ∧ (b - a) % n ≤ k then -1 else 0) else 0)
        + (if i = b then (if b ≠ a ∧ (a - b) % n ≤ k then -1 else 0) else 0) := by
    intro i hi
    rw [Finset.mem_Ico] at hi
    unfold rowAdds
    rw [tripleCoef_cons, tripleCoef_flatMap]
    simp only [tripleCoef_cons, tripleCoef_nil, add_zero]
    rw [sum_iota, Finset.sum_add_distrib]
    have h1 : ∑ t ∈ Finset.Ico (0 : Int) k, (if i = a ∧ (i + 1 + t) % n = b then (-1 : R) else 0)
        = if i = a then (if a ≠ b ∧ (b - a) % n ≤ k then -1 else 0) else 0 := by
      by_cases h : i = a
      · subst h; simp only [true_and, if_true]; exact sum_steps n k hk i b a0 a1 b0 b1
      · simp [h]
    have h2 : ∑ t ∈ Finset.Ico (0 : Int) k, (if (i + 1 + t) % n = a ∧ i = b then (-1 : R) else 0)
        = if i = b then (if b ≠ a ∧ (a - b) % n ≤ k then -1 else 0) else 0 := by
      by_cases h : i = b
      · subst h; simp only [and_true, if_true]; exact sum_steps n k hk i a b0 b1 a0 a1
      · simp [h]
    rw [h1, h2]
    by_cases h : i = a
    · subst h; simp [add_assoc]
    · simp [h]
  unfold allAdds
  rw [tripleCoef_flatMap, sum_iota, Finset.sum_congr rfl hrow, Finset.sum_add_distrib, Finset.sum_ite_eq', Finset.sum_ite_eq']
  simp only [Finset.mem_Ico, a0, a1, b0, b1, and_self, if_true]
  rw [ringCoef_eq n k hk a b a0 a1 b0 b1, sum_steps n k hk a b a0 a1 b0 b1, sum_steps n k hk b a b0 b1 a0 a1]

theorem mem_allAdds [NatCast R] [One R] [Neg R] (n k : Nat) (hk : 2 * k < n) (a b : Int) :
    (∃ e ∈ (allAdds n k : List (Int × Int × R)), e.1 = a ∧ e.2.1 = b) ↔ 0 ≤ a ∧ a < n ∧ 0 ≤ b ∧ b < n ∧ Near n k a b := by
  have hn : (0 : Int) < n := by omega
  constructor
  · rintro ⟨e, he, rfl, rfl⟩
    obtain ⟨i, hi, he⟩ := List.mem_flatMap.mp he
    rw [mem_iota] at hi
    rcases List.mem_cons.mp he with rfl | he
    · exact ⟨hi.1, hi.2, hi.1, hi.2, Or.inl (by simp)⟩
    · obtain ⟨t, ht, he⟩ := List.mem_flatMap.mp he
      rw [mem_iota] at ht
      have m0 := Int.emod_nonneg (i + 1 + t) hn.ne'
      have m1 := Int.emod_lt_of_pos (i + 1 + t) hn
      have h := (step_iff (n := n) (k := k) (by omega) hi.1 hi.2 m0 m1 t ht.1 ht.2).mp rfl
      simp only [List.mem_cons, List.not_mem_nil, or_false] at he
      rcases he with rfl | rfl
      · exact ⟨hi.1, hi.2, m0, m1, Or.inl (by dsimp only; omega)⟩
      · exact ⟨m0, m1, hi.1, hi.2, Or.inr (by dsimp only; omega)⟩
  · rintro ⟨a0, a1, b0, b1, h⟩
    by_cases hab : a = b
    · subst hab
      exact ⟨_, List.mem_flatMap.mpr ⟨a, mem_iota.mpr ⟨a0, a1⟩, List.mem_cons_self ..⟩, rfl, rfl⟩
    · have e1 := emod_sub a0 a1 b0 b1
      have e2 := emod_sub b0 b1 a0 a1
      rcases h with h | h
      · have t0 : 0 ≤ (b - a) % (n : Int) - 1 := by split at e1 <;> omega
        refine ⟨(a, (a + 1 + ((b - a) % n - 1)) % n, -1), List.mem_flatMap.mpr ⟨a, mem_iota.mpr ⟨a0, a1⟩, List.mem_cons_of_mem _
          (List.mem_flatMap.mpr ⟨(b - a) % n - 1, mem_iota.mpr ⟨t0, by omega⟩, by simp⟩)⟩, rfl, ?_⟩
        exact (step_iff (n := n) (k := k) (by omega) a0 a1 b0 b1 _ t0 (by omega)).mpr rfl
      · have t0 : 0 ≤ (a - b) % (n : Int) - 1 := by split at e2 <;> omega
        refine ⟨((b + 1 + ((a - b) % n - 1)) % n, b, -1), List.mem_flatMap.mpr ⟨b, mem_iota.mpr ⟨b0, b1⟩, List.mem_cons_of_mem _
          (List.mem_flatMap.mpr ⟨(a - b) % n - 1, mem_iota.mpr ⟨t0, by omega⟩, by simp⟩)⟩, ?_, rfl⟩
        exact (step_iff (n := n) (k := k) (by omega) b0 b1 a0 a1 _ t0 (by omega)).mpr rfl

end RingTest

/-- **C116.**  `MakeMatrix` succeeds exactly if there are more than twice as many rows as neighbours on a side.  The matrix is then square,
stores exactly the pairs at most `neighbors` steps apart around the ring, each once, and has the values of the Laplacian of that graph. -/
theorem C116_matrix [CommRing R] (n k : Nat) :
    (2 * k < n → ∃ A : Csr R, RingTest.makeMatrix n k = .ok A ∧ A.WF ∧ A.NoDup ∧ A.rows = n ∧ A.cols = n ∧
      (∀ i j : Int, A.Stored i j ↔ 0 ≤ i ∧ i < n ∧ 0 ≤ j ∧ j < n ∧ Near n k i j) ∧
      ∀ i j : Int, 0 ≤ i → i < n → 0 ≤ j → j < n → A.coef i j = ringCoef n k i j) ∧
    (¬ 2 * k < n → (RingTest.makeMatrix n k : Res (Csr R)) = .error .assertFail) := by
  constructor
  · intro hk
    have hmem := RingTest.mem_allAdds (R := R) n k hk
    have hwf : (⟨0, 0, false, RingTest.allAdds n k⟩ : Coo R).WF :=
      ⟨le_rfl, le_rfl, fun e he => by
        have := (hmem e.1 e.2.1).mp ⟨e, he, rfl, rfl⟩
        exact ⟨this.1, this.2.2.1⟩, fun h => by simp at h⟩
    have hlast : ∃ e ∈ (RingTest.allAdds n k : List (Int × Int × R)), e.1 = (n : Int) - 1 ∧ e.2.1 = (n : Int) - 1 :=
      (hmem _ _).mpr ⟨by omega, by omega, by omega, by omega, Or.inl (by simp)⟩
    have hsize : (⟨0, 0, false, RingTest.allAdds n k⟩ : Coo R).findSize = ((n : Int), (n : Int)) := by
      obtain ⟨e, he, h1, h2⟩ := hlast
      have hne : (⟨0, 0, false, RingTest.allAdds n k⟩ : Coo R).entries ≠ [] := List.ne_nil_of_mem he
      obtain ⟨g1, g2⟩ := C19_unsized (⟨0, 0, false, RingTest.allAdds n k⟩ : Coo R) hwf rfl hne
      have := g1 e he
      have := g2 n n (fun e he => by
        have := (hmem e.1 e.2.1).mp ⟨e, he, rfl, rfl⟩
        exact ⟨this.2.1, this.2.2.2.1⟩)
      apply Prod.ext <;> dsimp only <;> omega
    obtain ⟨A, hA, h1, h2, h3, h4, h5⟩ := C17_toSparse (⟨0, 0, false, RingTest.allAdds n k⟩ : Coo R) hwf
    rw [hsize] at h2 h3
    refine ⟨A, ?_, h1, h4, h2, h3, ?_, ?_⟩
    · unfold RingTest.makeMatrix
      rw [cassert_true (by omega), ok_bind, RingTest.loop_eq n k hk, ok_bind, hA]
    · intro i j
      rw [← hmem i j]
      have hA' := Coo.toSparse_eq (⟨0, 0, false, RingTest.allAdds n k⟩ : Coo R) hwf
      rw [hA, hsize] at hA'
      obtain rfl := Except.ok.inj hA'
      unfold Csr.Stored
      by_cases hi : 0 ≤ i ∧ i < n
      · obtain ⟨t, rfl⟩ := Int.eq_ofNat_of_zero_le hi.1
        have ht : t < (cooRows ((n : Int).toNat) (RingTest.allAdds n k : List (Int × Int × R))).length := by simp [cooRows]; omega
        rw [Csr.row_ofRows _ _ t ht]
        simp only [cooRows, List.getElem_map, List.getElem_range, List.map_map]
        rw [show ((Prod.fst : Int × R → Int) ∘ fun c => (c, tripleCoef (RingTest.allAdds n k) (t : Int) c)) = id from rfl, List.map_id]
        exact mem_pat _ _ _
      · constructor
        · intro h
          have hr : (Csr.ofRows (n : Int) (cooRows ((n : Int).toNat) (RingTest.allAdds n k : List (Int × Int × R)))).row i = [] := by
            rcases lt_or_ge i 0 with h0 | h0
            · exact Csr.row_neg _ h0
            · exact Csr.row_ge _ h1.indptr_len (by rw [h2]; omega)
          rw [hr] at h
          simp at h
        · intro h
          exact absurd ((hmem i j).mp h) (by omega)
    · intro i j i0 i1 j0 j1
      rw [h5]
      exact RingTest.coef_allAdds n k hk i j i0 i1 j0 j1
  · intro hk
    unfold RingTest.makeMatrix
    rw [cassert_false (by omega)]
    rfl


/-- **C116.**  `EliminateRowCol` keeps the stored positions.  If `(r, r)` is stored, once, row and column `r` become those of the identity; if
it is not stored they become zero.  The other coefficients stay. -/
theorem C116_eliminate [CommRing R] (A : Csr R) (hA : A.WF) (hsq : A.rows = A.cols) (r : Int) :
    (0 ≤ r → r < A.rows → ∃ B, RingTest.eliminateRowCol A r = .ok B ∧ B.WF ∧ B.rows = A.rows ∧ B.cols = A.cols ∧
      (∀ i, (B.row i).map Prod.fst = (A.row i).map Prod.fst) ∧
      (((A.row r).map Prod.fst).count r = 1 → ∀ i j, B.coef i j = eliminated A.coef r i j) ∧
      (¬ A.Stored r r → ∀ i j, B.coef i j = if i = r ∨ j = r then 0 else A.coef i j)) ∧
    (¬ (0 ≤ r ∧ r < A.rows) → RingTest.eliminateRowCol A r = .error .outOfBounds) := by
  have hr := hA.rows_nonneg
  obtain ⟨n, hn⟩ : ∃ n : Nat, A.rows = n := ⟨A.rows.toNat, by omega⟩
  have hone : ∀ x : R, mkVec A.rows x = .ok (vecFn n (fun _ => x)) := by
    intro x
    rw [hn, mkVec_nat, replicate_vecFn]
  constructor
  · intro r0 r1
    obtain ⟨ones, ho⟩ : ∃ ones, ones = vecFn n (fun i => if i = r then (0 : R) else 1) := ⟨_, rfl⟩
    obtain ⟨zeros, hz⟩ : ∃ zeros, zeros = vecFn n (fun i => if i = r then (1 : R) else 0) := ⟨_, rfl⟩
    have hol : (ones.length : Int) = A.rows := by rw [ho, length_vecFn, hn]
    have hzl : (zeros.length : Int) = A.rows := by rw [hz, length_vecFn, hn]
    obtain ⟨B1, e1, w1, u1⟩ := C12_scaleRows A hA ones hol
    obtain ⟨B1', e1', c1⟩ := C12_scaleRows_coef A hA ones hol
    obtain rfl : B1 = B1' := Except.ok.inj (e1.symm.trans e1')
    have hol' : (ones.length : Int) = B1.cols := by rw [u1.cols_eq, ← hsq, hol]
    obtain ⟨B2, e2, w2, u2⟩ := C12_scaleCols B1 w1 ones hol'
    obtain ⟨B2', e2', c2⟩ := C12_scaleCols_coef B1 w1 ones hol'
    obtain rfl : B2 = B2' := Except.ok.inj (e2.symm.trans e2')
    have hsq2 : B2.rows = B2.cols := by rw [u2.rows_eq, u2.cols_eq, u1.rows_eq, u1.cols_eq, hsq]
    have hzl' : B2.rows ≤ (zeros.length : Int) := by rw [u2.rows_eq, u1.rows_eq, hzl]
    obtain ⟨B3, e3, w3, u3⟩ := C10_addDiag B2 w2 hsq2 zeros hzl'
    obtain ⟨B3', e3', c3, d3, -⟩ := C10_addDiag_coef_partial B2 w2 hsq2 zeros hzl'
    obtain rfl : B3 = B3' := Except.ok.inj (e3.symm.trans e3')
    have fst : ∀ {α β : Type} {X : Csr α} {Y : Csr β} {G : Int → Int → α → β}, X.UpdatedBy Y G → ∀ i, (Y.row i).map Prod.fst = (X.row i).map Prod.fst := by
      intro α β X Y G h i
      rw [h.row_eq, List.map_map]
      rfl
    have f2 : ∀ i, (B2.row i).map Prod.fst = (A.row i).map Prod.fst := fun i => (fst u2 i).trans (fst u1 i)
    have v1 : ∀ i j, B2.coef i j = if i = r ∨ j = r then 0 else A.coef i j := by
      intro i j
      rw [c2, c1]
      by_cases hi : 0 ≤ i ∧ i < A.rows
      · by_cases hj : 0 ≤ j ∧ j < A.rows
        · rw [ho, (is_vecFn n _).vecAt_eq (i := i) hi.1 (by omega), (is_vecFn n _).vecAt_eq (i := j) hj.1 (by omega)]
          by_cases h1 : i = r <;> by_cases h2 : j = r <;> simp [h1, h2]
        · rw [Csr.coef_of_not_col hA (by omega)]
          simp
      · rw [Csr.coef_of_not_row hA (by omega)]
        simp
    have v3 : ∀ i, B3.coef i i = if i = r then ((A.row r).map Prod.fst).count r • (1 : R) else A.coef i i := by
      intro i
      rw [d3, v1, f2]
      by_cases h : i = r
      · subst h
        rw [hz, (is_vecFn n _).vecAt_eq (i := i) r0 (by omega)]
        simp
      · by_cases hi : 0 ≤ i ∧ i < A.rows
        · rw [hz, (is_vecFn n _).vecAt_eq (i := i) hi.1 (by omega)]
          simp [h]
        · have : A.row i = [] := by
            rcases lt_or_ge i 0 with h0 | h0
            · exact Csr.row_neg _ h0
            · exact Csr.row_ge _ hA.indptr_len (by omega)
          simp [h, this]
    refine ⟨B3, ?_, w3, by rw [u3.rows_eq, u2.rows_eq, u1.rows_eq], by rw [u3.cols_eq, u2.cols_eq, u1.cols_eq],
      fun i => (fst u3 i).trans (f2 i), ?_, ?_⟩
    · unfold RingTest.eliminateRowCol
      rw [hone, ok_bind, hone, ok_bind, wr_vecFn _ r0 (by omega), ok_bind, wr_vecFn _ r0 (by omega), ok_bind, ← ho, ← hz, e1, ok_bind, e2, ok_bind, e3]
    · intro hc i j
      unfold eliminated
      by_cases h : i = j
      · subst h
        rw [v3, hc]
        simp
      · rw [c3 i j h, v1]
        simp [h]
    · intro hc i j
      by_cases h : i = j
      · subst h
        rw [v3, List.count_eq_zero_of_not_mem hc]
        simp
      · rw [c3 i j h, v1]
  · intro h
    unfold RingTest.eliminateRowCol
    rw [hone, ok_bind, hone, ok_bind, wr_oob (by rw [length_vecFn]; omega)]
    rfl

namespace RingTest

theorem ringCoef_symm [CommRing R] (n k : Nat) (i j : Int) : (ringCoef n k i j : R) = ringCoef n k j i := by
  unfold ringCoef Near
  by_cases h : i = j
  · simp [h]
  · simp only [h, Ne.symm h, if_false]
    congr 1
    exact propext or_comm

theorem back_iff {n k a b : Int} (hk : 2 * k < n) (a0 : 0 ≤ a) (a1 : a < n) (b0 : 0 ≤ b) (b1 : b < n) (t : Int) (t0 : 0 ≤ t) (t1 : t < k) :
    (b + 1 + t) % n = a ↔ b = (a - (1 + t)) % n := by
  rw [show b + 1 + t = b + (1 + t) by ring, emod_add b0 b1 (by omega) (by omega), emod_sub (b := a) (a := 1 + t) (by omega) (by omega) a0 a1]
  split <;> split <;> omega

theorem ringCoef_sum [CommRing R] (n k : Nat) (hk : 2 * k < n) (a : Int) (a0 : 0 ≤ a) (a1 : a < n) :
    ∑ b ∈ Finset.Ico (0 : Int) n, (ringCoef n k a b : R) = 0 := by
  have hn : (0 : Int) < n := by omega
  rw [Finset.sum_congr rfl (fun b hb => ringCoef_eq n k hk a b a0 a1 (Finset.mem_Ico.mp hb).1 (Finset.mem_Ico.mp hb).2),
    Finset.sum_add_distrib, Finset.sum_add_distrib, Finset.sum_comm, Finset.sum_comm (s := Finset.Ico (0 : Int) n), Finset.sum_ite_eq,
    if_pos (Finset.mem_Ico.mpr ⟨a0, a1⟩)]
  have h1 : ∀ t ∈ Finset.Ico (0 : Int) k, ∑ b ∈ Finset.Ico (0 : Int) n, (if (a + 1 + t) % n = b then (-1 : R) else 0) = -1 := by
    intro t _
    rw [Finset.sum_ite_eq, if_pos (Finset.mem_Ico.mpr ⟨Int.emod_nonneg _ hn.ne', Int.emod_lt_of_pos _ hn⟩)]
  have h2 : ∀ t ∈ Finset.Ico (0 : Int) k, ∑ b ∈ Finset.Ico (0 : Int) n, (if (b + 1 + t) % n = a then (-1 : R) else 0) = -1 := by
    intro t ht
    rw [Finset.mem_Ico] at ht
    have : ∀ b ∈ Finset.Ico (0 : Int) n, (if (b + 1 + t) % n = a then (-1 : R) else 0) = if b = (a - (1 + t)) % n then -1 else 0 := by
      intro b hb
      rw [Finset.mem_Ico] at hb
      simp only [back_iff (n := n) (k := k) (by omega) a0 a1 hb.1 hb.2 t ht.1 ht.2]
    rw [Finset.sum_congr rfl this, Finset.sum_ite_eq', if_pos (Finset.mem_Ico.mpr ⟨Int.emod_nonneg _ hn.ne', Int.emod_lt_of_pos _ hn⟩)]
  rw [Finset.sum_congr rfl h1, Finset.sum_congr rfl h2]
  simp
  ring

theorem form_eq [CommRing R] (n : Int) (a : Int → Int → R) (hs : SymmOn n a)
    (h0 : ∀ i, 0 ≤ i → i < n → ∑ j ∈ Finset.Ico (0 : Int) n, a i j = 0) (x : Int → R) :
    2 * dotFn n x (matVec n a x) = -∑ i ∈ Finset.Ico (0 : Int) n, ∑ j ∈ Finset.Ico (0 : Int) n, a i j * ((x i - x j) * (x i - x j)) := by
  have e : ∀ i ∈ Finset.Ico (0 : Int) n, ∀ j ∈ Finset.Ico (0 : Int) n, a i j * ((x i - x j) * (x i - x j))
      = x i * x i * a i j + x j * x j * a j i - 2 * (x i * (a i j * x j)) := by
    intro i hi j hj
    rw [Finset.mem_Ico] at hi hj
    rw [hs i j hi.1 hi.2 hj.1 hj.2]
    ring
  rw [Finset.sum_congr rfl (fun i hi => Finset.sum_congr rfl (e i hi))]
  simp only [Finset.sum_sub_distrib, Finset.sum_add_distrib, ← Finset.mul_sum]
  rw [Finset.sum_comm (f := fun i j => x j * x j * a j i)]
  simp only [← Finset.mul_sum]
  have z : ∑ i ∈ Finset.Ico (0 : Int) n, x i * x i * ∑ j ∈ Finset.Ico (0 : Int) n, a i j = 0 := by
    apply Finset.sum_eq_zero
    intro i hi
    rw [Finset.mem_Ico] at hi
    rw [h0 i hi.1 hi.2, mul_zero]
  rw [z]
  unfold dotFn matVec
  ring

end RingTest

/-- **C116.**  The matrix of `MakeMatrix` is symmetric, its rows add up to zero, it is positive semidefinite, and if everybody has a
neighbour only the constant vectors give zero. -/
theorem C116_laplacian [Field K] [LinearOrder K] [IsStrictOrderedRing K] (n k : Nat) (hk : 2 * k < n) :
    SymmOn n (ringCoef n k : Int → Int → K) ∧ (∀ i : Int, 0 ≤ i → i < n → ∑ j ∈ Finset.Ico (0 : Int) n, (ringCoef n k i j : K) = 0) ∧
    (∀ x : Int → K, 0 ≤ dotFn n x (matVec n (ringCoef n k) x)) ∧
    (0 < k → ∀ x : Int → K, dotFn n x (matVec n (ringCoef n k) x) = 0 → ∀ i : Int, 0 ≤ i → i < n → x i = x 0) := by
  have hs : SymmOn n (ringCoef n k : Int → Int → K) := fun i j _ _ _ _ => RingTest.ringCoef_symm n k i j
  have h0 := RingTest.ringCoef_sum (R := K) n k hk
  have hf := RingTest.form_eq (n : Int) (ringCoef n k : Int → Int → K) hs h0
  have ht : ∀ (x : Int → K) (i j : Int), (ringCoef n k i j : K) * ((x i - x j) * (x i - x j)) ≤ 0 := by
    intro x i j
    unfold ringCoef
    split
    · subst i; simp
    · split
      · nlinarith [mul_self_nonneg (x i - x j)]
      · simp
  have hi : ∀ (x : Int → K) (i : Int), ∑ j ∈ Finset.Ico (0 : Int) n, (ringCoef n k i j : K) * ((x i - x j) * (x i - x j)) ≤ 0 :=
    fun x i => Finset.sum_nonpos (fun j _ => ht x i j)
  refine ⟨hs, h0, fun x => ?_, fun hk0 x hx => ?_⟩
  · have := hf x
    have := Finset.sum_nonpos (s := Finset.Ico (0 : Int) n) (fun i _ => hi x i)
    linarith
  · have h1 := hf x
    rw [hx, mul_zero] at h1
    have h2 := (Finset.sum_eq_zero_iff_of_nonpos (s := Finset.Ico (0 : Int) n) (fun i _ => hi x i)).mp (by linarith)
    have step : ∀ i : Int, 0 ≤ i → i + 1 < n → x (i + 1) = x i := by
      intro i i0 i1
      have h3 := (Finset.sum_eq_zero_iff_of_nonpos (fun j _ => ht x i j)).mp (h2 i (Finset.mem_Ico.mpr ⟨i0, by omega⟩)) (i + 1)
        (Finset.mem_Ico.mpr ⟨by omega, i1⟩)
      have hc : (ringCoef n k i (i + 1) : K) = -1 := by
        unfold ringCoef
        rw [if_neg (by omega), if_pos]
        left
        rw [show i + 1 - i = 1 by ring, Int.emod_eq_of_lt (by omega) (by omega)]
        omega
      rw [hc] at h3
      have : x i - x (i + 1) = 0 := mul_self_eq_zero.mp (by linarith)
      linarith
    intro i i0 i1
    obtain ⟨m, rfl⟩ := Int.eq_ofNat_of_zero_le i0
    induction m with
    | zero => rfl
    | succ m ih =>
      push_cast at i1 ⊢
      rw [step m (by omega) (by omega)]
      exact ih (by omega) (by omega)

/-- **C116.**  With one row and column eliminated the matrix is symmetric and positive definite. -/
theorem C116_definite [Field K] [LinearOrder K] [IsStrictOrderedRing K] (n k : Nat) (hk : 2 * k < n) (h : 0 < k ∨ n = 1) (r : Int) (r0 : 0 ≤ r)
    (r1 : r < n) : SymmOn n (eliminated (ringCoef n k : Int → Int → K) r) ∧ PosDefOn n (eliminated (ringCoef n k : Int → Int → K) r) := by
  obtain ⟨hs, -, hp, hc⟩ := C116_laplacian (K := K) n k hk
  constructor
  · intro i j i0 i1 j0 j1
    unfold eliminated
    rw [hs i j i0 i1 j0 j1]
    simp only [or_comm, eq_comm]
  · intro x hx
    obtain ⟨y, hy⟩ : ∃ y : Int → K, y = fun i => if i = r then 0 else x i := ⟨_, rfl⟩
    have hform : dotFn n x (matVec n (eliminated (ringCoef n k : Int → Int → K) r) x) = x r * x r + dotFn n y (matVec n (ringCoef n k) y) := by
      unfold dotFn matVec
      simp only [Finset.mul_sum]
      have e : ∀ i j : Int, x i * (eliminated (ringCoef n k : Int → Int → K) r i j * x j)
          = (if i = r then (if j = r then x r * x r else 0) else 0) + y i * (ringCoef n k i j * y j) := by
        intro i j
        rw [hy]
        unfold eliminated
        by_cases h1 : i = r <;> by_cases h2 : j = r <;> simp [h1, h2, Ne.symm]
      simp only [e, Finset.sum_add_distrib]
      congr 1
      rw [Finset.sum_congr rfl (fun i _ => show ∑ j ∈ Finset.Ico (0 : Int) n, (if i = r then (if j = r then x r * x r else 0) else 0)
        = if i = r then x r * x r else 0 by
          split
          · rw [Finset.sum_ite_eq', if_pos (Finset.mem_Ico.mpr ⟨r0, r1⟩)]
          · simp), Finset.sum_ite_eq', if_pos (Finset.mem_Ico.mpr ⟨r0, r1⟩)]
    rw [hform]
    have h1 := mul_self_nonneg (x r)
    have h2 := hp y
    by_contra hlt
    have h3 : x r = 0 := mul_self_eq_zero.mp (by linarith)
    have h4 : dotFn n y (matVec n (ringCoef n k) y) = 0 := by linarith
    have hyr : y r = 0 := by rw [hy]; simp
    apply hx
    intro i i0 i1
    have hyi : y i = 0 := by
      rcases h with h | h
      · rw [hc h y h4 i i0 i1, ← hc h y h4 r r0 r1, hyr]
      · rw [show i = r by omega, hyr]
    rw [hy] at hyi
    by_cases hir : i = r
    · rw [hir, h3]
    · simpa [hir] using hyi


namespace RingTest

/-- The matrix that is handed to the solver. -/
theorem setup_eq [Field K] (n k : Nat) (hk : 2 * k < n) : ∃ A B : Csr K, makeMatrix n k = .ok A ∧ eliminateRowCol A 0 = .ok B ∧
    B.WF ∧ B.NoDup ∧ B.rows = n ∧ B.cols = n ∧ B.nnz ≠ 0 ∧
    ∀ i j : Int, 0 ≤ i → i < n → 0 ≤ j → j < n → B.coef i j = eliminated (ringCoef n k) 0 i j := by
  obtain ⟨A, hA, wA, nA, rA, cA, sA, vA⟩ := (C116_matrix (R := K) n k).1 hk
  obtain ⟨B, hB, wB, rB, cB, fB, vB, -⟩ := (C116_eliminate A wA (by rw [rA, cA]) 0).1 le_rfl (by omega)
  have hst : A.Stored 0 0 := (sA 0 0).mpr ⟨le_rfl, by omega, le_rfl, by omega, Or.inl (by simp)⟩
  refine ⟨A, B, hA, hB, wB, fun i => by rw [fB]; exact nA i, rB.trans rA, cB.trans cA, ?_, ?_⟩
  · intro h0
    have hd : B.data.length = 0 := by
      have := wB.indptr_last
      unfold Csr.nnz at h0
      omega
    have : B.row 0 = [] := by
      have hi := wB.indices_len
      rw [hd] at hi
      rw [List.length_eq_zero_iff] at hi hd
      unfold Csr.row
      rw [hi, hd]
      cases rd B.indptr 0 <;> cases rd B.indptr (0 + 1) <;> simp
    have h1 := fB 0
    rw [this] at h1
    unfold Csr.Stored at hst
    rw [← h1] at hst
    simp at hst
  · intro i j i0 i1 j0 j1
    rw [vB (List.count_eq_one_of_mem (nA 0) hst)]
    unfold eliminated
    rw [vA i j i0 i1 j0 j1]

theorem det_unit [Field K] [LinearOrder K] [IsStrictOrderedRing K] (n k : Nat) (hk : 2 * k < n) (h : 0 < k ∨ n = 1) (B : Csr K)
    (hv : ∀ i j : Int, 0 ≤ i → i < n → 0 ≤ j → j < n → B.coef i j = eliminated (ringCoef n k) 0 i j) : IsUnit (B.mat n).det := by
  rw [isUnit_iff_ne_zero]
  intro h0
  obtain ⟨v, hv0, hv1⟩ := Matrix.exists_mulVec_eq_zero_iff.mpr h0
  obtain ⟨x, hx⟩ : ∃ x : Int → K, x = fun i : Int => if h : 0 ≤ i ∧ i < n then v ⟨i.toNat, by omega⟩ else 0 := ⟨_, rfl⟩
  have hxv : ∀ i : Fin n, x i = v i := by
    intro i
    rw [hx]
    simp only
    rw [dif_pos ⟨by omega, by omega⟩]
    simp
  have hz : ∀ i : Int, 0 ≤ i → i < n → matVec n (eliminated (ringCoef n k : Int → Int → K) 0) x i = 0 := by
    intro i i0 i1
    have := congrFun hv1 ⟨i.toNat, by omega⟩
    unfold Matrix.mulVec dotProduct Csr.mat at this
    unfold matVec
    rw [← SparseSolver.sum_fin n (fun j => eliminated (ringCoef n k : Int → Int → K) 0 i j * x j)]
    simp only [Pi.zero_apply, Int.toNat_of_nonneg i0] at this
    rw [← this]
    apply Finset.sum_congr rfl
    intro j _
    rw [hxv, hv i j i0 i1 (by omega) (by omega)]
  have hp := (C116_definite (K := K) n k hk h 0 le_rfl (by omega)).2 x (by
    intro hz0
    apply hv0
    funext i
    rw [← hxv i, hz0 i (by omega) (by omega)]
    rfl)
  unfold dotFn at hp
  rw [Finset.sum_eq_zero (fun i hi => by rw [hz i (Finset.mem_Ico.mp hi).1 (Finset.mem_Ico.mp hi).2, mul_zero])] at hp
  exact lt_irrefl _ hp

end RingTest

/-- **C116.**  The test of the direct solver, for any number of rows and of neighbours and any right-hand side that is not zero: what it
computes is the solution, the first component of which is that of the right-hand side, and the error it prints is zero. -/
theorem C116_run [Field K] [LinearOrder K] [IsStrictOrderedRing K] (U : Umfpack K S N) (hU : U.Exact) (srt : Csr.Sorter) (hs : IsSort srt)
    {sqrt : K → K} (hq : IsSqrt sqrt) (n k : Nat) (hk : 2 * k < n) (h : 0 < k ∨ n = 1) (rhs : List K) (hl : rhs.length = n) :
    ((∃ v ∈ rhs, v ≠ 0) → ∃ sol, RingTest.run U srt sqrt n k rhs = .ok (sol, List.replicate n 0, 0) ∧ sol.length = n ∧
      (∀ i : Int, 0 ≤ i → i < n → matVec n (eliminated (ringCoef n k) 0) (vecAt sol) i = vecAt rhs i) ∧ vecAt sol 0 = vecAt rhs 0) ∧
    ((∀ v ∈ rhs, v = 0) → RingTest.run U srt sqrt n k rhs = .error .assertFail) := by
  obtain ⟨A, B, hA, hB, wB, nB, rB, cB, zB, vB⟩ := RingTest.setup_eq (K := K) n k hk
  have hdet := RingTest.det_unit n k hk h B vB
  obtain ⟨F, s, hnew, hsr, hsc, hsol⟩ := C92_solves U hU srt hs [] B wB (by omega) zB nB (by rw [rB]; exact hdet)
  obtain ⟨⟨sol, hm, hml, hmv, -⟩, -⟩ := hsol rhs (List.replicate n 0) (by omega) (by rw [List.length_replicate]; omega)
  obtain ⟨diff, hd, hdl, hdv⟩ := C01_multVec B wB sol (by omega)
  have hdiff : diff = rhs := by
    have h1 : VecIs diff n (vecAt rhs) := ⟨by omega, fun i i0 i1 => by rw [hdv i i0 (by omega), hmv i i0 (by omega)]⟩
    rw [h1.eq_vecFn, ← hl]
    exact (eq_vecFn_vecAt rhs).symm
  subst hdiff
  have hmat : ∀ i : Int, 0 ≤ i → i < n → matVec n (eliminated (ringCoef n k) 0) (vecAt sol) i = vecAt diff i := by
    intro i i0 i1
    rw [← hmv i i0 (by omega)]
    unfold matVec Csr.mulVec
    rw [cB]
    apply Finset.sum_congr rfl
    intro j hj
    rw [Finset.mem_Ico] at hj
    rw [vB i j i0 i1 hj.1 hj.2]
  have hmem : ∀ p : Int, 0 ≤ p → p < n → vecAt (diff ++ diff) p = vecAt diff p := by
    intro p p0 p1
    rw [vecAt_int _ p0 (by simp; omega), vecAt_int _ p0 (by omega), List.getElem_append_left (by omega)]
  have hmem' : ∀ p : Int, 0 ≤ p → p < n → vecAt (diff ++ diff) (n + p) = vecAt diff p := by
    intro p p0 p1
    rw [vecAt_int _ (by omega) (by simp; omega), vecAt_int _ p0 (by omega), List.getElem_append_right (by omega)]
    congr 1
    omega
  have hin1 : (⟨0, (diff.length : Int)⟩ : View).InMem (diff ++ diff) := ⟨le_rfl, by simp, by simp⟩
  have hin2 : (⟨(diff.length : Int), (diff.length : Int)⟩ : View).InMem (diff ++ diff) := ⟨by simp, by simp, by simp⟩
  obtain ⟨m1, hm1, hu1⟩ := (C28_entrywise ⟨0, (diff.length : Int)⟩ ⟨(diff.length : Int), (diff.length : Int)⟩ (diff ++ diff) hin1 hin2 rfl
    (Or.inr (fun p ⟨h1, h2⟩ => absurd h1.2 (not_lt.mpr (by simpa using h2.1))))).2.1
  have hm1l : m1.length = n + n := by have := hu1.length_eq; simp at this; omega
  have hrun : RingTest.run U srt sqrt n k diff = (do
      let nrm ← Vec.l2Norm sqrt diff
      let m ← View.divScalar ⟨0, (diff.length : Int)⟩ nrm m1
      let d := m.take diff.length
      let err ← Vec.l2Norm sqrt d
      .ok (sol, d, err)) := by
    unfold RingTest.run
    rw [hA, ok_bind, hB, ok_bind, hnew, ok_bind]
    dsimp only
    rw [hsr, rB, mkVec_nat, ok_bind, hm, ok_bind, hd, ok_bind, hm1, ok_bind]
  have hnorm : Vec.l2Norm sqrt diff = .ok (sqrt (dotFn n (vecAt diff) (vecAt diff))) := by
    conv_lhs => rw [eq_vecFn_vecAt diff, hl]
    exact Example.l2Norm_vecFn sqrt n (vecAt diff)
  rw [hrun, hnorm, ok_bind]
  have hin3 : (⟨0, (diff.length : Int)⟩ : View).InMem m1 := ⟨le_rfl, by simp, by simp; omega⟩
  constructor
  · rintro ⟨v, hv, hv0⟩
    have hpos : sqrt (dotFn n (vecAt diff) (vecAt diff)) ≠ 0 := by
      intro h0
      have h2 : 0 ≤ dotFn n (vecAt diff) (vecAt diff) := Finset.sum_nonneg (fun i _ => mul_self_nonneg _)
      have h3 := (hq _ h2).2
      rw [h0, mul_zero] at h3
      obtain ⟨t, ht, rfl⟩ := List.getElem_of_mem hv
      have h4 := (Finset.sum_eq_zero_iff_of_nonneg (fun i _ => mul_self_nonneg _)).mp h3.symm (t : Int) (Finset.mem_Ico.mpr ⟨by omega, by omega⟩)
      apply hv0
      have h5 := mul_self_eq_zero.mp h4
      unfold vecAt at h5
      simpa [ht] using h5
    obtain ⟨m2, hm2, hu2⟩ := (C28_divScalar ⟨0, (diff.length : Int)⟩ m1 hin3 _).1 hpos
    have hz : m2.take diff.length = List.replicate n 0 := by
      apply List.ext_getElem
      · have := hu2.length_eq
        simp; omega
      · intro t h1 h2
        have ht : t < n := by simpa using h2
        have e2 := hu2.get_eq (t : Int) (by omega) (by omega)
        rw [if_pos ⟨by simp, by simp; omega⟩] at e2
        have e1 := hu1.vecAt_eq (i := (t : Int)) (by omega) (by simp; omega)
        rw [if_pos ⟨by simp, by simp; omega⟩] at e1
        simp only [sub_zero, zero_add] at e1 e2
        rw [hmem _ (by omega) (by omega), hl, hmem' _ (by omega) (by omega), sub_self] at e1
        rw [e1, zero_div, rd_nat] at e2
        · rw [List.getElem_take, List.getElem_replicate]
          exact Except.ok.inj e2
        · have := hu2.length_eq
          omega
    refine ⟨sol, ?_, by omega, hmat, ?_⟩
    · rw [hm2, ok_bind]
      dsimp only
      rw [hz, replicate_vecFn, Example.l2Norm_vecFn, ok_bind]
      simp [dotFn, hq.zero]
    · rw [← hmat 0 le_rfl (by omega)]
      unfold matVec eliminated
      simp only [true_or, if_true]
      rw [Finset.sum_congr rfl (fun j _ => show (if (0 : Int) = j then (1 : K) else 0) * vecAt sol j = if 0 = j then vecAt sol j else 0 by
        split <;> simp), Finset.sum_ite_eq, if_pos (Finset.mem_Ico.mpr ⟨le_rfl, by omega⟩)]
  · intro hz
    have h0 : dotFn n (vecAt diff) (vecAt diff) = 0 := by
      apply Finset.sum_eq_zero
      intro i hi
      rw [Finset.mem_Ico] at hi
      have : vecAt diff i = 0 := by
        obtain ⟨t, rfl⟩ := Int.eq_ofNat_of_zero_le hi.1
        have ht : t < diff.length := by omega
        rw [vecAt_nat diff t ht]
        exact hz _ (List.getElem_mem ht)
      rw [this, mul_zero]
    rw [h0, hq.zero, Example.divScalar_zero]
    rfl

/-- **C116.**  Without neighbours the matrix is singular if there is more than one row, and the solver rejects it; with too many neighbours
it is not made. -/
theorem C116_rejects [Field K] [LinearOrder K] [IsStrictOrderedRing K] (U : Umfpack K S N) (hU : U.Exact) (srt : Csr.Sorter) (hs : IsSort srt)
    (sqrt : K → K) (n k : Nat) (h : ¬ 2 * k < n ∨ k = 0 ∧ 1 < n) (rhs : List K) :
    RingTest.run U srt sqrt n k rhs = .error .assertFail := by
  by_cases hk : 2 * k < n
  · obtain ⟨rfl, hn⟩ : k = 0 ∧ 1 < n := by rcases h with h | h <;> [exact absurd hk h; exact h]
    obtain ⟨A, B, hA, hB, wB, nB, rB, cB, zB, vB⟩ := RingTest.setup_eq (K := K) n 0 hk
    have hdet : ¬ IsUnit (B.mat B.rows.toNat).det := by
      rw [rB, Int.toNat_natCast]
      rw [isUnit_iff_ne_zero, not_not]
      apply Matrix.det_eq_zero_of_row_eq_zero ⟨1, hn⟩
      intro j
      unfold Csr.mat
      rw [vB _ _ (by omega) (by simp; omega) (by omega) (by omega)]
      unfold eliminated ringCoef
      have h1 : ¬ Near n ((0 : Nat) : Int) 1 j ∨ (1 : Int) = j := by
        by_cases hj : (1 : Int) = j
        · exact Or.inr hj
        · left
          have e1 := RingTest.emod_sub (n := n) (a := 1) (b := (j : Int)) (by omega) (by omega) (by omega) (by omega)
          have e2 := RingTest.emod_sub (n := n) (b := 1) (a := (j : Int)) (by omega) (by omega) (by omega) (by omega)
          unfold Near
          split at e1 <;> split at e2 <;> omega
      simp only [Nat.cast_one]
      by_cases hj : (1 : Int) = j
      · simp [← hj]
      · rcases h1 with h1 | h1
        · rw [if_neg hj, if_neg hj, if_neg h1]
          simp
        · exact absurd h1 hj
    unfold RingTest.run
    rw [hA, ok_bind, hB, ok_bind, C92_rejects U hU srt hs [] B wB (Or.inr ⟨zB, Or.inr hdet⟩)]
    rfl
  · unfold RingTest.run
    rw [(C116_matrix (R := K) n k).2 hk]
    rfl

/-- **C116.**  The matrix of `MakeMatrix` has `size * (2 * neighbors + 1)` stored entries. -/
theorem C116_nnz [CommRing R] (n k : Nat) (hk : 2 * k < n) (A : Csr R) (h : RingTest.makeMatrix n k = .ok A) : A.nnz = n * (2 * k + 1) := by
  obtain ⟨A', hA, wA, nA, rA, cA, sA, -⟩ := (C116_matrix (R := R) n k).1 hk
  obtain rfl : A = A' := Except.ok.inj (h.symm.trans hA)
  have hcard : ∀ i : Int, 0 ≤ i → i < n → (A.row i).length = 2 * k + 1 := by
    intro i i0 i1
    have e1 : ((A.row i).map Prod.fst).toFinset = (Finset.Ico (0 : Int) n).filter (fun j => Near n k i j) := by
      ext j
      rw [List.mem_toFinset, Finset.mem_filter, Finset.mem_Ico]
      have := sA i j
      unfold Csr.Stored at this
      rw [this]
      tauto
    have e2 : (A.row i).length = ((Finset.Ico (0 : Int) n).filter (fun j => Near n k i j)).card := by
      rw [← e1, List.toFinset_card_of_nodup (nA i), List.length_map]
    have e3 := RingTest.ringCoef_sum (R := Int) n k hk i i0 i1
    have e4 : ∀ j ∈ Finset.Ico (0 : Int) n, (ringCoef n k i j : Int) = (if i = j then (2 * k + 1 : Int) else 0) - (if Near n k i j then 1 else 0) := by
      intro j _
      unfold ringCoef
      by_cases hij : i = j
      · subst hij
        rw [if_pos rfl, if_pos rfl, if_pos (show Near n k i i from Or.inl (by simp))]
        push_cast
        ring
      · rw [if_neg hij, if_neg hij]
        split <;> simp
    rw [Finset.sum_congr rfl e4, Finset.sum_sub_distrib, Finset.sum_ite_eq, if_pos (Finset.mem_Ico.mpr ⟨i0, i1⟩), ← Finset.sum_filter,
      Finset.sum_const, nsmul_one] at e3
    rw [e2]
    push_cast at e3
    omega
  obtain ⟨c, rs, hc0, hrs, rfl⟩ := wA.exists_rows
  have hlen : rs.length = n := by have : (rs.length : Int) = n := rA; omega
  have hall : ∀ r ∈ rs, r.length = 2 * k + 1 := by
    intro r hr
    obtain ⟨t, ht, rfl⟩ := List.getElem_of_mem hr
    have := hcard (t : Int) (by omega) (by omega)
    rwa [Csr.row_ofRows c rs t ht] at this
  have hflat : rs.flatten.length = rs.length * (2 * k + 1) := by
    clear rA hrs hcard hlen nA sA h hA wA cA
    induction rs with
    | nil => simp
    | cons r rs ih =>
      rw [List.flatten_cons, List.length_append, ih (fun x hx => hall x (List.mem_cons_of_mem _ hx)), hall r (List.mem_cons_self ..),
        List.length_cons]
      ring
  have hd : (Csr.ofRows c rs).nnz = (rs.flatten.length : Int) := by
    unfold Csr.nnz Csr.ofRows
    rw [List.length_map]
  rw [hd, hflat, hlen]
  push_cast
  ring

/-- **C116.**  The test of the partitioner, for any numbers for which it passes its own assertion: it prints the number of stored entries and each of
the three partitions gives every row a part, with no part empty and no more of them than were asked for. -/
theorem C116_partition {β : Type} (conv : Int → β) (metis : Metis.Kway β) (hm : Metis.Assigns metis) (n k f : Nat) (hk : 2 * k < n) :
    ∃ p q r, RingTest.partitions conv metis n k f = .ok ((n * (2 * k + 1) : Nat), p, q, r) ∧
      ∀ l, l = p ∨ l = q ∨ l = r → l.length = n ∧ ∃ m : Int, 1 ≤ m ∧ m ≤ max 1 ((n / f : Nat) : Int) ∧ ∀ x : Int, x ∈ l ↔ 0 ≤ x ∧ x < m := by
  obtain ⟨A, hA, wA, nA, rA, cA, sA, -⟩ := (C116_matrix (R := Int) n k).1 hk
  have hz := C116_nnz n k hk A hA
  have hle : max 1 ((n / f : Nat) : Int) ≤ A.rows := by
    have := Nat.div_le_self n f
    omega
  have hnn : A.rows - 1 ≤ A.nnz := by
    rw [hz, rA]
    have : (0 : Int) ≤ n * (2 * k) := by positivity
    linarith
  obtain ⟨p, m1, e1, l1, a1, b1, c1⟩ := Metis.C73_partition conv metis hm A wA (by omega) hnn _ (le_max_left 1 ((n / f : Nat) : Int)) hle false false
  obtain ⟨q, m2, e2, l2, a2, b2, c2⟩ := Metis.C73_partition conv metis hm A wA (by omega) hnn _ (le_max_left 1 ((n / f : Nat) : Int)) hle true false
  obtain ⟨r, m3, e3, l3, a3, b3, c3⟩ := Metis.C73_partition conv metis hm A wA (by omega) hnn _ (le_max_left 1 ((n / f : Nat) : Int)) hle true true
  refine ⟨p, q, r, ?_, ?_⟩
  · unfold RingTest.partitions
    rw [hA, ok_bind]
    dsimp only
    rw [e1, ok_bind, e2, ok_bind, e3, ok_bind, hz]
    push_cast
    rfl
  · rintro l (rfl | rfl | rfl)
    · exact ⟨by omega, m1, a1, b1, c1⟩
    · exact ⟨by omega, m2, a2, b2, c2⟩
    · exact ⟨by omega, m3, a3, b3, c3⟩

/-- C116: a partitioner that leaves a part empty. -/
example : RingTest.partitions (fun x => x) Metis.toyMetis 7 1 2 = .ok (21, [1, 0, 0, 0, 0, 0, 0], [1, 0, 0, 0, 0, 0, 0], [1, 0, 0, 0, 0, 0, 0]) := by
  decide +kernel

/-- C116: the matrix of a ring of five, each joined with the next, before and after elimination. -/
example : RingTest.makeMatrix (α := ℚ) 5 1 = .ok ⟨5, 5, [0, 3, 6, 9, 12, 15], [0, 1, 4, 0, 1, 2, 1, 2, 3, 2, 3, 4, 3, 4, 0],
    [2, -1, -1, -1, 2, -1, -1, 2, -1, -1, 2, -1, -1, 2, -1]⟩ := by decide +kernel
example : (do let A ← RingTest.makeMatrix (α := ℚ) 5 1; RingTest.eliminateRowCol A 0) = .ok ⟨5, 5, [0, 3, 6, 9, 12, 15],
    [0, 1, 4, 0, 1, 2, 1, 2, 3, 2, 3, 4, 3, 4, 0], [1, 0, 0, 0, 2, -1, -1, 2, -1, -1, 2, -1, -1, 2, 0]⟩ := by decide +kernel
example : (RingTest.makeMatrix 4 2 : Res (Csr ℚ)) = .error .assertFail := by decide +kernel
/-- The sizes of the program. -/
example : (20 : Nat) > 2 * 4 ∧ (0 < 4 ∨ 20 = 1) := by decide

end Linalg
