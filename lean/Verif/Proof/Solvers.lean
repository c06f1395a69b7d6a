import Verif.Spec.Solvers
import Verif.Proof.Cg
import Verif.Proof.Vec
import Verif.Props.Vector
import Mathlib.LinearAlgebra.Dimension.Finite
import Mathlib.LinearAlgebra.Dimension.Constructions

/-! # Solvers: the model follows the recurrences -/

namespace Linalg
open Cpp

variable {K : Type}

/-! ## Vectors and matrices as functions -/

section Ring
variable [CommRing K]

theorem matVec_lin (n : Int) (a : Int → Int → K) : ∀ f g, matVec n a (f + g) = matVec n a f + matVec n a g := by
  intro f g
  funext i
  simp only [matVec, Pi.add_apply, mul_add, Finset.sum_add_distrib]

theorem matVec_smul (n : Int) (a : Int → Int → K) (c : K) (f : Int → K) :
    matVec n a (c • f) = c • matVec n a f := by
  funext i
  simp only [matVec, Pi.smul_apply, smul_eq_mul, Finset.mul_sum]
  exact Finset.sum_congr rfl (fun j _ => by ring)

theorem matVec_congr (n : Int) (a : Int → Int → K) {f g : Int → K} (h : ∀ i, 0 ≤ i → i < n → f i = g i) :
    matVec n a f = matVec n a g := by
  funext i
  apply Finset.sum_congr rfl
  intro j hj
  have := Finset.mem_Ico.mp hj
  rw [h j this.1 this.2]

theorem dotFn_congr (n : Int) {f f' g g' : Int → K} (h : ∀ i, 0 ≤ i → i < n → f i = f' i)
    (h' : ∀ i, 0 ≤ i → i < n → g i = g' i) : dotFn n f g = dotFn n f' g' := by
  apply Finset.sum_congr rfl
  intro j hj
  have := Finset.mem_Ico.mp hj
  rw [h j this.1 this.2, h' j this.1 this.2]

theorem dotFn_symm (n : Int) (f g : Int → K) : dotFn n f g = dotFn n g f :=
  Finset.sum_congr rfl (fun _ _ => mul_comm _ _)

theorem dotFn_selfAdj {n : Int} {a : Int → Int → K} (h : SymmOn n a) (f g : Int → K) :
    dotFn n (matVec n a f) g = dotFn n f (matVec n a g) := by
  unfold dotFn matVec
  simp only [Finset.sum_mul, Finset.mul_sum]
  rw [Finset.sum_comm]
  apply Finset.sum_congr rfl
  intro i hi
  apply Finset.sum_congr rfl
  intro j hj
  have hi := Finset.mem_Ico.mp hi
  have hj := Finset.mem_Ico.mp hj
  rw [h j i hj.1 hj.2 hi.1 hi.2]
  ring

end Ring

theorem dotFn_bilin [Field K] (n : Int) : Cg.Bilin (V := Int → K) (dotFn n : (Int → K) → (Int → K) → K) where
  add_left := by
    intro u v w
    simp only [dotFn, Pi.add_apply, add_mul, Finset.sum_add_distrib]
  smul_left := by
    intro c u w
    simp only [dotFn, Pi.smul_apply, smul_eq_mul, Finset.mul_sum]
    exact Finset.sum_congr rfl (fun j _ => by ring)
  symm := dotFn_symm n

theorem matVec_isLin [Field K] (n : Int) (a : Int → Int → K) : Cg.Lin (K := K) (matVec n a) :=
  ⟨matVec_lin n a, matVec_smul n a⟩

theorem dotFn_self_pos [Field K] [LinearOrder K] [IsStrictOrderedRing K] {n : Int} {f : Int → K} (h : ¬ ZeroOn n f) :
    0 < dotFn n f f := by
  unfold ZeroOn at h
  push Not at h
  obtain ⟨i, h0, h1, hi⟩ := h
  apply Finset.sum_pos' (fun j _ => mul_self_nonneg _)
  exact ⟨i, Finset.mem_Ico.mpr ⟨h0, h1⟩, mul_self_pos.mpr hi⟩

theorem dotFn_zero_left [CommRing K] {n : Int} {f : Int → K} (h : ZeroOn n f) (g : Int → K) : dotFn n f g = 0 := by
  apply Finset.sum_eq_zero
  intro i hi
  have := Finset.mem_Ico.mp hi
  rw [h i this.1 this.2, zero_mul]

/-! ## The vector operations of the model -/

theorem setSize_length' {R : Type} (x : List R) {n : Int} (hn : 0 ≤ n) (v : R) :
    ∃ y, Vec.setSize x n v = .ok y ∧ (y.length : Int) = n := by
  unfold Vec.setSize
  by_cases he : n ≠ x.length
  · rw [if_pos he, cassert_true hn, ok_bind]
    exact ⟨_, rfl, by simp [resize]; omega⟩
  · rw [if_neg he]
    exact ⟨x, rfl, by omega⟩

theorem Op.IsMat.multResize_eq [CommRing K] {op : Op K} {n : Nat} {a : Int → Int → K} (h : op.IsMat n a)
    (f : Int → K) (y : List K) : op.multResize (vecFn n f) y = .ok (vecFn n (matVec n a f)) := by
  unfold Op.multResize
  obtain ⟨y', e, l⟩ := setSize_length' y (show 0 ≤ op.rows by rw [h.rows_eq]; omega) (0 : K)
  rw [e, ok_bind]
  obtain ⟨z, e2, hz⟩ := h.computes (vecFn n f) y' (by rw [h.cols_eq]; simp) l
  rw [e2]
  rw [h.rows_eq] at hz
  rw [hz.eq_vecFn]
  congr 1
  apply vecFn_congr
  intro i _ _
  refine congrFun (matVec_congr n a (fun j j0 j1 => ?_)) i
  exact (is_vecFn n f).vecAt_eq j0 j1

theorem Vec.update_vecFn (F : K → K → K) (n : Nat) (f g : Int → K) :
    Vec.update F (vecFn n f) (vecFn n g) = .ok (vecFn n (fun i => F (f i) (g i))) := by
  unfold Vec.update
  rw [cassert_true (by simp), ok_bind, length_vecFn]
  apply fillLoop'
  intro i h h0 h1 hh
  rw [vrd_vecFn h0 h1, ok_bind, vrd_vecFn h0 h1, ok_bind, vwr_vecFn _ h0 h1, hh]

theorem Vec.update2_vecFn (F : K → K → K) (n : Nat) (f g : Int → K) :
    Vec.update2 n F (vecFn n f) (vecFn n g) = .ok (vecFn n (fun i => F (f i) (g i))) := by
  unfold Vec.update2
  apply fillLoop'
  intro i h h0 h1 hh
  rw [vrd_vecFn h0 h1, ok_bind, vrd_vecFn h0 h1, ok_bind, vwr_vecFn _ h0 h1, hh]

theorem Vec.update3_vecFn (F : K → K → K → K) (n : Nat) (f g k : Int → K) :
    Vec.update3 n F (vecFn n f) (vecFn n g) (vecFn n k) = .ok (vecFn n (fun i => F (f i) (g i) (k i))) := by
  unfold Vec.update3
  apply fillLoop'
  intro i h h0 h1 hh
  rw [vrd_vecFn h0 h1, ok_bind, vrd_vecFn h0 h1, ok_bind, vrd_vecFn h0 h1, ok_bind, vwr_vecFn _ h0 h1, hh]

theorem map_vecFn {β : Type} (F : K → β) (n : Nat) (f : Int → K) : (vecFn n f).map F = vecFn n (fun i => F (f i)) := by
  simp [vecFn]

theorem Vec.inner_vecFn [CommRing K] (n : Nat) (f g : Int → K) :
    Vec.inner (vecFn n f) (vecFn n g) = .ok (dotFn n f g) := by
  rw [(C30_sum_inner _ _).2.1 (by simp), length_vecFn]
  congr 1
  apply Finset.sum_congr rfl
  intro i hi
  have := Finset.mem_Ico.mp hi
  rw [(is_vecFn n f).vecAt_eq this.1 this.2, (is_vecFn n g).vecAt_eq this.1 this.2]

/-! ## Positive definite systems -/

section Spd
variable [Field K] [LinearOrder K] [IsStrictOrderedRing K] {n : Nat} {a : Int → Int → K} {G : (Int → K) → Int → K}

/-- While the residual is not zero there is no breakdown. -/
theorem cg_noBreak (sa : SymmOn n a) (pa : PosDefOn n a)
    (sG : ∀ u v, dotFn n (G u) v = dotFn n u (G v)) (pG : ∀ f, ¬ ZeroOn n f → 0 < dotFn n f (G f)) (b x : Int → K)
    (k : Nat) (h : ∀ j, j < k → ¬ ZeroOn n (Cg.seq (dotFn n) (matVec n a) G b x j).r) :
    Cg.NoBreak (dotFn n) (matVec n a) G b x k := by
  induction k with
  | zero => intro j hj; omega
  | succ k ih =>
    have I := ih (fun j hj => h j (by omega))
    intro j hj
    by_cases hjk : j < k
    · exact I j hjk
    · obtain rfl : j = k := by omega
      have R := Cg.rel (dotFn_bilin (n : Int)) (matVec_isLin n a) (dotFn_selfAdj sa) sG b x j I
      have hr := h j (by omega)
      have hz := pG _ hr
      rw [show G (Cg.seq (dotFn n) (matVec n a) G b x j).r = _ from (Cg.precond b x j).symm] at hz
      have hp : ¬ ZeroOn n (Cg.seq (dotFn n) (matVec n a) G b x j).p := by
        intro h0
        have := R.pr
        rw [dotFn_zero_left h0, dotFn_symm] at this
        exact absurd this.symm hz.ne'
      exact ⟨(pa _ hp).ne', hz.ne'⟩

/-- Some residual among the first `n + 1` is zero. -/
theorem cg_finite (sa : SymmOn n a) (pa : PosDefOn n a)
    (sG : ∀ u v, dotFn n (G u) v = dotFn n u (G v)) (pG : ∀ f, ¬ ZeroOn n f → 0 < dotFn n f (G f)) (b x : Int → K) :
    ∃ k, k ≤ n ∧ ZeroOn n (Cg.seq (dotFn n) (matVec n a) G b x k).r := by
  by_contra hc
  push Not at hc
  set S := Cg.seq (dotFn n) (matVec n a) G b x with hS
  have hB := dotFn_bilin (K := K) (n : Int)
  have hz : ∀ j, (S j).z = G (S j).r := fun j => Cg.precond b x j
  have rel : ∀ k, k ≤ n → Cg.Rel (dotFn n) (matVec n a) G b x k := fun k hk =>
    Cg.rel hB (matVec_isLin n a) (dotFn_selfAdj sa) sG b x k
      (cg_noBreak sa pa sG pG b x k (fun j hj => hc j (by omega)))
  have orth : ∀ i j, i ≤ n → j ≤ n → i ≠ j → dotFn n (S i).z (S j).r = 0 := by
    intro i j hi hj hij
    rcases Nat.lt_or_gt_of_ne hij with h | h
    · exact (rel j hj).z_r i h
    · have := (rel i hi).z_r j h
      rw [hz, sG, ← hz, dotFn_symm]
      exact this
  have li : LinearIndependent K (fun (i : Fin (n + 1)) (t : Fin n) => (S i).r ((t : Nat) : Int)) := by
    rw [Fintype.linearIndependent_iff]
    intro g hg j
    -- pair the relation with `z j`
    have e : ∑ i : Fin (n + 1), g i * dotFn n (S j).z (S i).r = 0 := by
      have : ∀ i : Fin (n + 1), g i * dotFn n (S j).z (S i).r
          = ∑ t ∈ Finset.Ico (0 : Int) n, (S j).z t * (g i * (S i).r t) := by
        intro i
        unfold dotFn
        rw [Finset.mul_sum]
        exact Finset.sum_congr rfl (fun t _ => by ring)
      rw [Finset.sum_congr rfl (fun i _ => this i), Finset.sum_comm]
      apply Finset.sum_eq_zero
      intro t ht
      have ht := Finset.mem_Ico.mp ht
      rw [← Finset.mul_sum]
      have h1 := congrFun hg ⟨t.toNat, by omega⟩
      simp only [Finset.sum_apply, Pi.smul_apply, smul_eq_mul, Pi.zero_apply] at h1
      rw [Int.toNat_of_nonneg ht.1] at h1
      rw [h1, mul_zero]
    rw [Finset.sum_eq_single j] at e
    · have hp := pG _ (hc j (by omega))
      rw [← hz, dotFn_symm] at hp
      exact (mul_eq_zero.mp e).resolve_right hp.ne'
    · intro i _ hij
      rw [orth j i (by omega) (by omega) (fun h => hij (Fin.ext h.symm)), mul_zero]
    · simp
  have := li.fintype_card_le_finrank
  simp at this

end Spd
end Linalg
