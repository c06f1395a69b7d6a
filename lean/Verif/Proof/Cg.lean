import Mathlib.Algebra.Module.LinearMap.Basic
import Mathlib.Algebra.Field.Basic
import Mathlib.Tactic.Ring
import Mathlib.Tactic.FieldSimp
import Mathlib.Tactic.Module
import Mathlib.Tactic.LinearCombination

/-!
# The conjugate gradient recurrence

The textbook recurrence over a vector space with a symmetric bilinear form, and its orthogonality relations.
-/

namespace Linalg
namespace Cg

/-- Iterate, residual, preconditioned residual, direction. -/
structure State (V : Type) where
  x : V
  r : V
  z : V
  p : V

variable {K V : Type} [Field K] [AddCommGroup V] [Module K V]

/-- The step length. -/
def alpha (B : V → V → K) (L : V → V) (s : State V) : K := B s.r s.z / B s.p (L s.p)

/-- One step. -/
def step (B : V → V → K) (L G : V → V) (s : State V) : State V :=
  let a := alpha B L s
  let r := s.r - a • L s.p
  let z := G r
  let b := B z r / B s.z s.r
  ⟨s.x + a • s.p, r, z, b • s.p + z⟩

/-- The start. -/
def init (L G : V → V) (b x : V) : State V :=
  ⟨x, b - L x, G (b - L x), G (b - L x)⟩

/-- The states. -/
def seq (B : V → V → K) (L G : V → V) (b x : V) : Nat → State V
  | 0 => init L G b x
  | k + 1 => step B L G (seq B L G b x k)

/-- The states from a given one on. -/
def seqFrom (B : V → V → K) (L G : V → V) (s : State V) : Nat → State V
  | 0 => s
  | k + 1 => step B L G (seqFrom B L G s k)

theorem seqFrom_step (B : V → V → K) (L G : V → V) (s : State V) (k : Nat) :
    seqFrom B L G (step B L G s) k = seqFrom B L G s (k + 1) := by
  induction k with
  | zero => rfl
  | succ k ih => simp only [seqFrom] at ih ⊢; rw [ih]

theorem seq_eq (B : V → V → K) (L G : V → V) (b x : V) (k : Nat) : seq B L G b x k = seqFrom B L G (init L G b x) k := by
  induction k with
  | zero => rfl
  | succ k ih => simp only [seqFrom, seq, ih]

/-- A bilinear form. -/
structure Bilin (B : V → V → K) : Prop where
  add_left : ∀ u v w, B (u + v) w = B u w + B v w
  smul_left : ∀ (c : K) u w, B (c • u) w = c * B u w
  symm : ∀ u v, B u v = B v u

/-- A linear map. -/
structure Lin (L : V → V) : Prop where
  add : ∀ u v, L (u + v) = L u + L v
  smul : ∀ (c : K) u, L (c • u) = c • L u

variable {B : V → V → K} {L G : V → V}

theorem Bilin.add_right (h : Bilin B) (u v w : V) : B u (v + w) = B u v + B u w := by
  rw [h.symm, h.add_left, h.symm v, h.symm w]
theorem Bilin.smul_right (h : Bilin B) (c : K) (u v : V) : B u (c • v) = c * B u v := by
  rw [h.symm, h.smul_left, h.symm v]
theorem Bilin.sub_left (h : Bilin B) (u v w : V) : B (u - v) w = B u w - B v w := by
  have : u - v = u + (-1 : K) • v := by rw [neg_one_smul, sub_eq_add_neg]
  rw [this, h.add_left, h.smul_left]; ring
theorem Bilin.sub_right (h : Bilin B) (u v w : V) : B u (v - w) = B u v - B u w := by
  rw [h.symm, h.sub_left, h.symm v, h.symm w]
theorem Lin.sub (h : Lin (K := K) L) (u v : V) : L (u - v) = L u - L v := by
  have e : u - v = u + (-1 : K) • v := by rw [neg_one_smul, sub_eq_add_neg]
  rw [e, h.add, h.smul, neg_one_smul, sub_eq_add_neg]

/-- The recurrence residual is the true residual. -/
theorem residual (hL : Lin (K := K) L) (b x : V) (k : Nat) :
    (seq B L G b x k).r = b - L (seq B L G b x k).x := by
  induction k with
  | zero => rfl
  | succ k ih =>
    simp only [seq, step]
    rw [hL.add, hL.smul, ih, sub_add_eq_sub_sub]

theorem precond (b x : V) (k : Nat) : (seq B L G b x k).z = G (seq B L G b x k).r := by
  cases k with
  | zero => rfl
  | succ k => rfl

/-- No breakdown in the first `k` steps. -/
def NoBreak (B : V → V → K) (L G : V → V) (b x : V) (k : Nat) : Prop :=
  ∀ j, j < k → B (seq B L G b x j).p (L (seq B L G b x j).p) ≠ 0 ∧ B (seq B L G b x j).r (seq B L G b x j).z ≠ 0

/-- The relations that hold after `k` steps. -/
structure Rel (B : V → V → K) (L G : V → V) (b x : V) (k : Nat) : Prop where
  z_r : ∀ i, i < k → B (seq B L G b x i).z (seq B L G b x k).r = 0
  p_r : ∀ i, i < k → B (seq B L G b x i).p (seq B L G b x k).r = 0
  p_Lp : ∀ i, i < k → B (seq B L G b x i).p (L (seq B L G b x k).p) = 0
  pr : B (seq B L G b x k).p (seq B L G b x k).r = B (seq B L G b x k).z (seq B L G b x k).r

theorem rel (hB : Bilin B) (hL : Lin (K := K) L) (sL : ∀ u v, B (L u) v = B u (L v)) (sG : ∀ u v, B (G u) v = B u (G v))
    (b x : V) (k : Nat) (hk : NoBreak B L G b x k) : Rel B L G b x k := by
  induction k with
  | zero => exact ⟨by simp, by simp, by simp, rfl⟩
  | succ k ih =>
    have I := ih (fun j hj => hk j (by omega))
    obtain ⟨hp, hz⟩ := hk k (by omega)
    set S := seq B L G b x with hS
    have ha : alpha B L (S k) ≠ 0 := by unfold alpha; exact div_ne_zero hz hp
    have hr : (S (k + 1)).r = (S k).r - alpha B L (S k) • L (S k).p := rfl
    have hpp : (S (k + 1)).p = (B (S (k + 1)).z (S (k + 1)).r / B (S k).z (S k).r) • (S k).p + (S (k + 1)).z := rfl
    have pr1 : ∀ i, i < k + 1 → B (S i).p (S (k + 1)).r = 0 := by
      intro i hi
      rw [hr, hB.sub_right, hB.smul_right]
      by_cases h : i < k
      · rw [I.p_r i h, I.p_Lp i h]; ring
      · obtain rfl : i = k := by omega
        rw [I.pr, hB.symm (S i).z]
        unfold alpha
        field_simp
        ring
    have zr1 : ∀ i, i < k + 1 → B (S i).z (S (k + 1)).r = 0 := by
      intro i hi
      cases i with
      | zero => exact pr1 0 hi
      | succ i =>
        have e : (S (i + 1)).p = (B (S (i + 1)).z (S (i + 1)).r / B (S i).z (S i).r) • (S i).p + (S (i + 1)).z := rfl
        have h1 := pr1 (i + 1) hi
        rw [e, hB.add_left, hB.smul_left, pr1 i (by omega)] at h1
        simpa using h1
    have rz1 : ∀ i, i < k + 1 → B (S i).r (S (k + 1)).z = 0 := by
      intro i hi
      have := zr1 i hi
      rw [show (S i).z = G (S i).r from precond b x i, sG] at this
      rw [show (S (k + 1)).z = G (S (k + 1)).r from precond b x (k + 1)]
      exact this
    refine ⟨zr1, pr1, ?_, ?_⟩
    · intro i hi
      obtain ⟨hpi, hzi⟩ := hk i hi
      have hai : alpha B L (S i) ≠ 0 := by unfold alpha; exact div_ne_zero hzi hpi
      have hri : (S (i + 1)).r = (S i).r - alpha B L (S i) • L (S i).p := rfl
      -- alpha_i <p_i, L z_(k+1)> = <r_i - r_(i+1), z_(k+1)>
      have key : alpha B L (S i) * B (S i).p (L (S (k + 1)).z) = B (S i).r (S (k + 1)).z - B (S (i + 1)).r (S (k + 1)).z := by
        rw [hri, hB.sub_left, hB.smul_left, sL]; ring
      rw [hpp, hL.add, hL.smul, hB.add_right, hB.smul_right]
      by_cases h : i < k
      · rw [I.p_Lp i h]
        rw [rz1 i hi, rz1 (i + 1) (by omega)] at key
        have : B (S i).p (L (S (k + 1)).z) = 0 := by
          have := mul_eq_zero.mp (key.trans (sub_self 0))
          tauto
        rw [this]; ring
      · obtain rfl : i = k := by omega
        rw [rz1 i hi] at key
        have e1 : B (S i).p (L (S (i + 1)).z) = - B (S (i + 1)).r (S (i + 1)).z / alpha B L (S i) := by
          rw [eq_div_iff hai, mul_comm, key]; ring
        rw [e1, hB.symm (S i).z, hB.symm (S (i + 1)).z]
        unfold alpha
        field_simp
        ring
    · rw [hpp, hB.add_left, hB.smul_left, pr1 k (by omega)]
      ring

end Cg
end Linalg
