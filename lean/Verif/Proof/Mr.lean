import Verif.Proof.Cg
import Mathlib.Algebra.Order.Field.Basic
import Mathlib.LinearAlgebra.Span.Basic
import Mathlib.Algebra.BigOperators.Group.Finset.Basic
import Mathlib.Tactic.Linarith

/-!
# The minimal residual recurrence

The recurrence of MINRES over a vector space with a symmetric bilinear form `B`, an operator `L` and a preconditioner `G`: the
Lanczos vectors are orthonormal, the residual is `eta` times a unit vector, and it is the smallest over the Krylov space.
-/

set_option linter.unusedSectionVars false
set_option linter.unusedVariables false

namespace Linalg
namespace Mr

/-- Iterate, directions, Lanczos vectors and scalars, as they are when a pass begins. -/
structure State (K V : Type) where
  x : V
  w0 : V
  w1 : V
  v0 : V
  v1 : V
  beta : K
  eta : K
  gamma : K
  gamma2 : K
  sigma : K
  sigma2 : K

variable {K V : Type} [Field K] [AddCommGroup V] [Module K V]

/-- The next Lanczos vector, normalised. -/
def cur (s : State K V) : V := s.beta⁻¹ • s.v1

/-- The diagonal element. -/
def alpha (B : V → V → K) (L G : V → V) (s : State K V) : K := B (G (cur s)) (L (G (cur s)))

/-- The next Lanczos vector, not normalised. -/
def next (B : V → V → K) (L G : V → V) (s : State K V) : V :=
  L (G (cur s)) - s.beta • s.v0 - alpha B L G s • cur s

/-- The next off-diagonal element. -/
def bnext (B : V → V → K) (L G : V → V) (sqrt : K → K) (s : State K V) : K := sqrt (B (next B L G s) (G (next B L G s)))

def delta (B : V → V → K) (L G : V → V) (s : State K V) : K := s.gamma2 * alpha B L G s - s.gamma * s.sigma2 * s.beta
def rho3 (s : State K V) : K := s.sigma * s.beta
def rho2 (B : V → V → K) (L G : V → V) (s : State K V) : K := s.sigma2 * alpha B L G s + s.gamma * s.gamma2 * s.beta
def rho1 (B : V → V → K) (L G : V → V) (sqrt : K → K) (s : State K V) : K :=
  sqrt (delta B L G s * delta B L G s + bnext B L G sqrt s * bnext B L G sqrt s)

/-- The direction before it is divided by `rho1`. -/
def wraw (B : V → V → K) (L G : V → V) (s : State K V) : V := G (cur s) - rho3 s • s.w0 - rho2 B L G s • s.w1

/-- One pass. -/
def step (B : V → V → K) (L G : V → V) (sqrt : K → K) (s : State K V) : State K V :=
  let r := rho1 B L G sqrt s
  let w := (1 / r) • G (cur s) - (rho3 s / r) • s.w0 - (rho2 B L G s / r) • s.w1
  let g := delta B L G s / r
  let t := bnext B L G sqrt s / r
  ⟨s.x + (g * s.eta) • w, s.w1, w, cur s, next B L G s, bnext B L G sqrt s, -t * s.eta, s.gamma2, g, s.sigma2, t⟩

/-- The start. -/
def init (B : V → V → K) (L G : V → V) (sqrt : K → K) (b x : V) : State K V :=
  ⟨x, 0, 0, 0, b - L x, sqrt (B (b - L x) (G (b - L x))), sqrt (B (b - L x) (G (b - L x))), 1, 1, 0, 0⟩

/-- The states. -/
def seq (B : V → V → K) (L G : V → V) (sqrt : K → K) (b x : V) : Nat → State K V
  | 0 => init B L G sqrt b x
  | k + 1 => step B L G sqrt (seq B L G sqrt b x k)

/-- The unit vector that carries the residual, and its predecessor. -/
def zz (B : V → V → K) (L G : V → V) (sqrt : K → K) (b x : V) : Nat → V × V
  | 0 => (0, 0)
  | k + 1 =>
    let s := seq B L G sqrt b x k
    let p := zz B L G sqrt b x k
    (-s.sigma2 • p.1 + s.gamma2 • cur s, p.1)

/-- No division by zero in the first `k` passes. -/
def NoBreak (B : V → V → K) (L G : V → V) (sqrt : K → K) (b x : V) (k : Nat) : Prop :=
  ∀ j, j < k → (seq B L G sqrt b x j).beta ≠ 0 ∧ rho1 B L G sqrt (seq B L G sqrt b x j) ≠ 0

variable {B : V → V → K} {L G : V → V} {sqrt : K → K} {b x : V}

theorem Lin.zero (h : Cg.Lin (K := K) L) : L 0 = 0 := by
  have := h.smul 0 0
  simpa using this

section Ordered
variable [LinearOrder K] [IsStrictOrderedRing K]

/-- What is assumed. -/
structure Hyp (B : V → V → K) (L G : V → V) (sqrt : K → K) : Prop where
  bil : Cg.Bilin B
  linL : Cg.Lin (K := K) L
  linG : Cg.Lin (K := K) G
  symL : ∀ u v, B (L u) v = B u (L v)
  symG : ∀ u v, B (G u) v = B u (G v)
  pos : ∀ v, 0 ≤ B v (G v)
  sqrt : ∀ t, 0 ≤ t → sqrt t * sqrt t = t

theorem bnext_sq (H : Hyp B L G sqrt) (s : State K V) :
    bnext B L G sqrt s * bnext B L G sqrt s = B (next B L G s) (G (next B L G s)) := H.sqrt _ (H.pos _)

theorem rho1_sq (H : Hyp B L G sqrt) (s : State K V) :
    rho1 B L G sqrt s * rho1 B L G sqrt s = delta B L G s * delta B L G s + bnext B L G sqrt s * bnext B L G sqrt s :=
  H.sqrt _ (add_nonneg (mul_self_nonneg _) (mul_self_nonneg _))

/-- The rotations are rotations. -/
theorem rot (H : Hyp B L G sqrt) (k : Nat) (hk : NoBreak B L G sqrt b x k) :
    (seq B L G sqrt b x k).gamma2 * (seq B L G sqrt b x k).gamma2 + (seq B L G sqrt b x k).sigma2 * (seq B L G sqrt b x k).sigma2 = 1 ∧
    (seq B L G sqrt b x k).gamma * (seq B L G sqrt b x k).gamma + (seq B L G sqrt b x k).sigma * (seq B L G sqrt b x k).sigma = 1 := by
  induction k with
  | zero => simp [seq, init]
  | succ k ih =>
    have I := ih (fun j hj => hk j (by omega))
    obtain ⟨_, hr⟩ := hk k (by omega)
    refine ⟨?_, I.1⟩
    simp only [seq, step]
    have := rho1_sq H (seq B L G sqrt b x k)
    field_simp
    linear_combination -this

theorem wnext_eq (s : State K V) (hr : rho1 B L G sqrt s ≠ 0) :
    (step B L G sqrt s).w1 = (rho1 B L G sqrt s)⁻¹ • wraw B L G s := by
  simp only [step, wraw, div_eq_inv_mul, smul_sub, smul_smul, mul_one]

/-- The image of the directions, and the shape of the residual vectors. -/
structure Img (B : V → V → K) (L G : V → V) (sqrt : K → K) (b x : V) (k : Nat) : Prop where
  w1 : L (seq B L G sqrt b x k).w1 = (seq B L G sqrt b x k).gamma2 • (zz B L G sqrt b x k).1
    + (seq B L G sqrt b x k).sigma2 • cur (seq B L G sqrt b x k)
  w0 : L (seq B L G sqrt b x k).w0 = (seq B L G sqrt b x k).gamma • (zz B L G sqrt b x k).2
    + (seq B L G sqrt b x k).sigma • (seq B L G sqrt b x k).v0
  z : (zz B L G sqrt b x k).1 = -(seq B L G sqrt b x k).sigma • (zz B L G sqrt b x k).2
    + (seq B L G sqrt b x k).gamma • (seq B L G sqrt b x k).v0

/-- The image of the direction before division. -/
theorem img_raw (H : Hyp B L G sqrt) (k : Nat) (hk : NoBreak B L G sqrt b x k) (I : Img B L G sqrt b x k) :
    L (wraw B L G (seq B L G sqrt b x k)) = delta B L G (seq B L G sqrt b x k) • (zz B L G sqrt b x (k + 1)).1
      + next B L G (seq B L G sqrt b x k) := by
  obtain ⟨r1, r2⟩ := rot H k hk
  have hz := I.z
  have h1 := I.w1
  have h0 := I.w0
  simp only [zz]
  set s := seq B L G sqrt b x k with hs
  set z1 := (zz B L G sqrt b x k).1
  set z2 := (zz B L G sqrt b x k).2
  unfold wraw
  rw [H.linL.sub, H.linL.sub, H.linL.smul, H.linL.smul, h1, h0]
  have hn : L (G (cur s)) = next B L G s + s.beta • s.v0 + alpha B L G s • cur s := by unfold next; module
  rw [hn]
  -- eliminate the predecessor
  have e : s.beta • s.v0 - rho3 s • (s.gamma • z2 + s.sigma • s.v0) = (s.beta * s.gamma) • z1 := by
    rw [hz]
    unfold rho3
    have h3 : s.beta = s.beta * (s.gamma * s.gamma + s.sigma * s.sigma) := by rw [r2, mul_one]
    calc s.beta • s.v0 - (s.sigma * s.beta) • (s.gamma • z2 + s.sigma • s.v0)
        = (s.beta - s.sigma * s.beta * s.sigma) • s.v0 - (s.sigma * s.beta * s.gamma) • z2 := by module
      _ = (s.beta * (s.gamma * s.gamma + s.sigma * s.sigma) - s.sigma * s.beta * s.sigma) • s.v0
          - (s.sigma * s.beta * s.gamma) • z2 := by rw [← h3]
      _ = _ := by module
  have e2 : next B L G s + s.beta • s.v0 + alpha B L G s • cur s - rho3 s • (s.gamma • z2 + s.sigma • s.v0)
      - rho2 B L G s • (s.gamma2 • z1 + s.sigma2 • cur s)
      = next B L G s + alpha B L G s • cur s + (s.beta * s.gamma) • z1 - rho2 B L G s • (s.gamma2 • z1 + s.sigma2 • cur s) := by
    rw [← e]; module
  rw [e2]
  have c1 : s.beta * s.gamma - rho2 B L G s * s.gamma2 = delta B L G s * (-s.sigma2) := by
    unfold rho2 delta
    linear_combination (-(s.beta * s.gamma)) * r1
  have c2 : alpha B L G s - rho2 B L G s * s.sigma2 = delta B L G s * s.gamma2 := by
    unfold rho2 delta
    linear_combination (-(alpha B L G s)) * r1
  calc _ = next B L G s + (alpha B L G s - rho2 B L G s * s.sigma2) • cur s + (s.beta * s.gamma - rho2 B L G s * s.gamma2) • z1 := by
        module
    _ = _ := by rw [c1, c2]; module

/-- The image of the new direction. -/
theorem img_next (H : Hyp B L G sqrt) (k : Nat) (hk : NoBreak B L G sqrt b x (k + 1)) (I : Img B L G sqrt b x k) :
    L (seq B L G sqrt b x (k + 1)).w1 = (seq B L G sqrt b x (k + 1)).gamma2 • (zz B L G sqrt b x (k + 1)).1
      + (rho1 B L G sqrt (seq B L G sqrt b x k))⁻¹ • (seq B L G sqrt b x (k + 1)).v1 := by
  obtain ⟨hb, hr⟩ := hk k (by omega)
  have e := img_raw H k (fun j hj => hk j (by omega)) I
  rw [show seq B L G sqrt b x (k + 1) = step B L G sqrt (seq B L G sqrt b x k) from rfl, wnext_eq _ hr, H.linL.smul, e]
  simp only [step, smul_add, smul_smul, div_eq_inv_mul]

theorem img (H : Hyp B L G sqrt) (k : Nat) (hk : NoBreak B L G sqrt b x k) (hb : (seq B L G sqrt b x k).beta ≠ 0) :
    Img B L G sqrt b x k := by
  induction k with
  | zero =>
    have z := Lin.zero H.linL
    constructor <;> simp [seq, init, zz, z]
  | succ k ih =>
    obtain ⟨hb', hr⟩ := hk k (by omega)
    have I := ih (fun j hj => hk j (by omega)) hb'
    refine ⟨?_, I.w1, rfl⟩
    rw [img_next H k hk I]
    congr 1
    unfold cur
    rw [smul_smul]
    congr 1
    have e : (seq B L G sqrt b x (k + 1)).sigma2
        = (seq B L G sqrt b x (k + 1)).beta / rho1 B L G sqrt (seq B L G sqrt b x k) := rfl
    rw [e]
    field_simp

/-! ## Lanczos vectors -/

/-- The normalised vectors. -/
def lv (B : V → V → K) (L G : V → V) (sqrt : K → K) (b x : V) (k : Nat) : V := cur (seq B L G sqrt b x k)

theorem v1_eq (k : Nat) (hb : (seq B L G sqrt b x k).beta ≠ 0) :
    (seq B L G sqrt b x k).v1 = (seq B L G sqrt b x k).beta • lv B L G sqrt b x k := by
  unfold lv cur
  rw [smul_smul, mul_inv_cancel₀ hb, one_smul]

theorem beta_sq (H : Hyp B L G sqrt) (k : Nat) : (seq B L G sqrt b x k).beta * (seq B L G sqrt b x k).beta
    = B (seq B L G sqrt b x k).v1 (G (seq B L G sqrt b x k).v1) := by
  cases k with
  | zero => exact H.sqrt _ (H.pos _)
  | succ k => exact bnext_sq H _

theorem lv_unit (H : Hyp B L G sqrt) (k : Nat) (hb : (seq B L G sqrt b x k).beta ≠ 0) :
    B (lv B L G sqrt b x k) (G (lv B L G sqrt b x k)) = 1 := by
  have e := beta_sq (b := b) (x := x) H k
  rw [v1_eq k hb, H.linG.smul, H.bil.smul_left, H.bil.smul_right] at e
  have h2 : (seq B L G sqrt b x k).beta * (seq B L G sqrt b x k).beta ≠ 0 := mul_ne_zero hb hb
  apply mul_left_cancel₀ h2
  linear_combination -e

/-- The form `u, v ↦ B u (G v)` is symmetric. -/
theorem form_symm (H : Hyp B L G sqrt) (u v : V) : B u (G v) = B v (G u) := by
  rw [← H.symG, H.bil.symm]

theorem lan_apply (k : Nat) : L (G (lv B L G sqrt b x k)) = (seq B L G sqrt b x (k + 1)).v1
    + (seq B L G sqrt b x k).beta • (seq B L G sqrt b x k).v0 + alpha B L G (seq B L G sqrt b x k) • lv B L G sqrt b x k := by
  have : (seq B L G sqrt b x (k + 1)).v1 = next B L G (seq B L G sqrt b x k) := rfl
  rw [this]
  unfold next lv
  module

/-- All earlier vectors are orthogonal to the new one. -/
theorem lan_orth (H : Hyp B L G sqrt) (k : Nat) (hb : ∀ j, j ≤ k → (seq B L G sqrt b x j).beta ≠ 0)
    (ho : ∀ i j, i < j → j ≤ k → B (lv B L G sqrt b x i) (G (lv B L G sqrt b x j)) = 0) :
    ∀ i, i ≤ k → B (lv B L G sqrt b x i) (G (seq B L G sqrt b x (k + 1)).v1) = 0 := by
  intro i hi
  -- the part of the predecessor
  have hv0 : B (lv B L G sqrt b x i) (G (seq B L G sqrt b x k).v0) = if i + 1 = k then 1 else 0 := by
    cases k with
    | zero =>
      rw [if_neg (by omega)]
      show B _ (G 0) = 0
      rw [Lin.zero H.linG]
      have := H.bil.smul_right 0 (lv B L G sqrt b x i) (0 : V)
      simpa using this
    | succ k =>
      show B _ (G (lv B L G sqrt b x k)) = _
      by_cases h1 : i = k
      · subst h1; rw [if_pos rfl]; exact lv_unit H i (hb i (by omega))
      · rw [if_neg (by omega)]
        rcases Nat.lt_or_gt_of_ne h1 with h | h
        · exact ho i k h (by omega)
        · rw [form_symm H]; exact ho k i h hi
  have hself : B (lv B L G sqrt b x i) (G (lv B L G sqrt b x k)) = if i = k then 1 else 0 := by
    by_cases h : i = k
    · subst h; rw [if_pos rfl]; exact lv_unit H i (hb i hi)
    · rw [if_neg h]; exact ho i k (by omega) le_rfl
  have hT : B (lv B L G sqrt b x i) (G (L (G (lv B L G sqrt b x k))))
      = (seq B L G sqrt b x k).beta * (if i + 1 = k then 1 else 0)
        + alpha B L G (seq B L G sqrt b x k) * (if i = k then 1 else 0) := by
    by_cases h : i = k
    · subst h
      rw [if_neg (by omega), if_pos rfl, ← H.symG]
      unfold alpha lv
      ring
    · rw [if_neg h, ← H.symG, ← H.symL, lan_apply (B := B) (L := L) (G := G) (sqrt := sqrt) (b := b) (x := x) i, H.bil.add_left, H.bil.add_left, H.bil.smul_left, H.bil.smul_left,
        ho i k (by omega) le_rfl, v1_eq (i + 1) (hb _ (by omega)), H.bil.smul_left]
      have hp : B (seq B L G sqrt b x i).v0 (G (lv B L G sqrt b x k)) = 0 := by
        cases i with
        | zero =>
          show B 0 _ = 0
          have := H.bil.smul_left 0 (0 : V) (G (lv B L G sqrt b x k))
          simpa using this
        | succ i => exact ho i k (by omega) le_rfl
      rw [hp]
      by_cases h2 : i + 1 = k
      · rw [if_pos h2, h2, lv_unit H k (hb k le_rfl)]; ring
      · rw [if_neg h2, ho (i + 1) k (by omega) le_rfl]; ring
  have e : (seq B L G sqrt b x (k + 1)).v1 = L (G (lv B L G sqrt b x k))
      - (seq B L G sqrt b x k).beta • (seq B L G sqrt b x k).v0 - alpha B L G (seq B L G sqrt b x k) • lv B L G sqrt b x k := rfl
  rw [e, H.linG.sub, H.linG.sub, H.linG.smul, H.linG.smul, H.bil.sub_right, H.bil.sub_right, H.bil.smul_right, H.bil.smul_right,
    hT, hv0, hself]
  ring

theorem lan_rel (H : Hyp B L G sqrt) (k : Nat) (hb : ∀ j, j ≤ k → (seq B L G sqrt b x j).beta ≠ 0) :
    ∀ i j, i < j → j ≤ k → B (lv B L G sqrt b x i) (G (lv B L G sqrt b x j)) = 0 := by
  induction k with
  | zero => intro i j h1 h2; omega
  | succ k ih =>
    intro i j h1 h2
    have I := ih (fun j hj => hb j (by omega))
    by_cases hj : j ≤ k
    · exact I i j h1 hj
    · obtain rfl : j = k + 1 := by omega
      have := lan_orth H k (fun j hj => hb j (by omega)) I i (by omega)
      rw [v1_eq (k + 1) (hb _ le_rfl), H.linG.smul, H.bil.smul_right] at this
      exact (mul_eq_zero.mp this).resolve_left (hb _ le_rfl)

/-! ## The residual -/

theorem zz_succ (k : Nat) : (zz B L G sqrt b x (k + 1)).1
    = -(seq B L G sqrt b x k).sigma2 • (zz B L G sqrt b x k).1 + (seq B L G sqrt b x k).gamma2 • lv B L G sqrt b x k := rfl

/-- A vector orthogonal to the first `k + 1` Lanczos vectors is orthogonal to the residual vectors made of them. -/
theorem zz_orth (H : Hyp B L G sqrt) (y : V) (k : Nat) (hy : ∀ i, i < k → B (lv B L G sqrt b x i) (G y) = 0) :
    B (zz B L G sqrt b x k).1 (G y) = 0 := by
  induction k with
  | zero =>
    show B 0 _ = 0
    have := H.bil.smul_left 0 (0 : V) (G y)
    simpa using this
  | succ k ih =>
    rw [zz_succ, H.bil.add_left, H.bil.smul_left, H.bil.smul_left, ih (fun i hi => hy i (by omega)), hy k (by omega)]
    ring

/-- They are unit vectors. -/
theorem zz_unit (H : Hyp B L G sqrt) (k : Nat) (hk : NoBreak B L G sqrt b x k) (hb : (seq B L G sqrt b x k).beta ≠ 0) :
    B (zz B L G sqrt b x (k + 1)).1 (G (zz B L G sqrt b x (k + 1)).1) = 1 := by
  have hball : ∀ j, j ≤ k → (seq B L G sqrt b x j).beta ≠ 0 := by
    intro j hj
    rcases Nat.lt_or_ge j k with h | h
    · exact (hk j h).1
    · obtain rfl : j = k := by omega
      exact hb
  have ho := zz_orth H (lv B L G sqrt b x k) k (fun i hi => lan_rel H k hball i k hi le_rfl)
  have hu := lv_unit H k hb
  cases k with
  | zero =>
    simp only [zz, seq, init]
    have e : -(0 : K) • (0 : V) + (1 : K) • cur (init B L G sqrt b x) = lv B L G sqrt b x 0 := by
      simp [lv, seq]
    simp only [init] at e
    rw [e]
    exact hu
  | succ k =>
    have I := zz_unit H k (fun j hj => hk j (by omega)) (hball k (by omega))
    obtain ⟨r1, _⟩ := rot H (k + 1) hk
    rw [zz_succ, H.linG.add, H.linG.smul, H.linG.smul, H.bil.add_left, H.bil.add_right, H.bil.add_right]
    simp only [H.bil.smul_left, H.bil.smul_right]
    rw [I, ho, form_symm H (lv B L G sqrt b x (k + 1)), ho, hu]
    linear_combination r1

/-- After a pass the residual is a combination of the last residual vector and the new Lanczos vector. -/
theorem resid_next (H : Hyp B L G sqrt) (k : Nat) (hk : NoBreak B L G sqrt b x (k + 1))
    (hr : b - L (seq B L G sqrt b x k).x = (seq B L G sqrt b x k).eta • (zz B L G sqrt b x (k + 1)).1) :
    b - L (seq B L G sqrt b x (k + 1)).x = (seq B L G sqrt b x k).eta •
      (((seq B L G sqrt b x (k + 1)).sigma2 * (seq B L G sqrt b x (k + 1)).sigma2) • (zz B L G sqrt b x (k + 1)).1
        - ((seq B L G sqrt b x (k + 1)).gamma2 * (rho1 B L G sqrt (seq B L G sqrt b x k))⁻¹) • (seq B L G sqrt b x (k + 1)).v1) := by
  have I := img H k (fun j hj => hk j (by omega)) (hk k (by omega)).1
  have e := img_next H k hk I
  have hx : (seq B L G sqrt b x (k + 1)).x = (seq B L G sqrt b x k).x
      + ((seq B L G sqrt b x (k + 1)).gamma2 * (seq B L G sqrt b x k).eta) • (seq B L G sqrt b x (k + 1)).w1 := rfl
  obtain ⟨r1, _⟩ := rot H (k + 1) hk
  rw [hx, H.linL.add, H.linL.smul, e, ← sub_sub, hr]
  have h1 : (seq B L G sqrt b x (k + 1)).sigma2 * (seq B L G sqrt b x (k + 1)).sigma2
      = 1 - (seq B L G sqrt b x (k + 1)).gamma2 * (seq B L G sqrt b x (k + 1)).gamma2 := by linear_combination r1
  rw [h1]
  module

theorem resid (H : Hyp B L G sqrt) (k : Nat) (hk : NoBreak B L G sqrt b x k) (hb : (seq B L G sqrt b x k).beta ≠ 0) :
    b - L (seq B L G sqrt b x k).x = (seq B L G sqrt b x k).eta • (zz B L G sqrt b x (k + 1)).1 := by
  induction k with
  | zero =>
    have e := v1_eq 0 hb
    rw [zz_succ]
    simp only [seq, init, zz, neg_zero, zero_smul, one_smul, zero_add] at e ⊢
    exact e
  | succ k ih =>
    have I := ih (fun j hj => hk j (by omega)) (hk k (by omega)).1
    rw [resid_next H k hk I, zz_succ (k + 1), v1_eq (k + 1) hb]
    have hr := (hk k (by omega)).2
    have e1 : (rho1 B L G sqrt (seq B L G sqrt b x k))⁻¹ * (seq B L G sqrt b x (k + 1)).beta = (seq B L G sqrt b x (k + 1)).sigma2 := by
      show _ = bnext B L G sqrt _ / _
      rw [div_eq_inv_mul]
      rfl
    have e2 : (seq B L G sqrt b x (k + 1)).eta = -(seq B L G sqrt b x (k + 1)).sigma2 * (seq B L G sqrt b x k).eta := rfl
    rw [e2, ← e1]
    module

/-- The square of `eta` is the square of the norm of the residual, after every pass. -/
theorem eta_sq (H : Hyp B L G sqrt) (k : Nat) (hk : NoBreak B L G sqrt b x k) :
    B (b - L (seq B L G sqrt b x k).x) (G (b - L (seq B L G sqrt b x k).x))
      = (seq B L G sqrt b x k).eta * (seq B L G sqrt b x k).eta := by
  cases k with
  | zero => exact (H.sqrt _ (H.pos _)).symm
  | succ k =>
    have hkk : NoBreak B L G sqrt b x k := fun j hj => hk j (by omega)
    obtain ⟨hb, hr⟩ := hk k (by omega)
    have e := resid_next H k hk (resid H k hkk hb)
    have hball : ∀ j, j ≤ k → (seq B L G sqrt b x j).beta ≠ 0 := fun j hj => (hk j (by omega)).1
    have ho := zz_orth H _ (k + 1) (fun i hi => lan_orth H k hball (lan_rel H k hball) i (by omega))
    have hu := zz_unit H k hkk hb
    have hv := beta_sq (b := b) (x := x) H (k + 1)
    have e1 : (rho1 B L G sqrt (seq B L G sqrt b x k))⁻¹ * (seq B L G sqrt b x (k + 1)).beta = (seq B L G sqrt b x (k + 1)).sigma2 := by
      show _ = bnext B L G sqrt _ / _
      rw [div_eq_inv_mul]
      rfl
    have e2 : (seq B L G sqrt b x (k + 1)).eta = -(seq B L G sqrt b x (k + 1)).sigma2 * (seq B L G sqrt b x k).eta := rfl
    obtain ⟨r1, _⟩ := rot H (k + 1) hk
    rw [e, e2]
    simp only [H.linG.smul, H.linG.sub, H.bil.smul_left, H.bil.smul_right, H.bil.sub_left, H.bil.sub_right]
    rw [form_symm H (seq B L G sqrt b x (k + 1)).v1, ho, hu, ← hv]
    generalize (rho1 B L G sqrt (seq B L G sqrt b x k))⁻¹ = ri at *
    generalize (seq B L G sqrt b x (k + 1)).beta = be at *
    generalize (seq B L G sqrt b x (k + 1)).sigma2 = si at *
    generalize (seq B L G sqrt b x (k + 1)).gamma2 = ga at *
    generalize (seq B L G sqrt b x k).eta = et at *
    subst e1
    linear_combination (et * et * (ri * be) * (ri * be)) * r1

/-! ## The smallest residual -/

/-- The directions computed so far. -/
def dirs (B : V → V → K) (L G : V → V) (sqrt : K → K) (b x : V) (k : Nat) : Submodule K V :=
  Submodule.span K ((fun j => (seq B L G sqrt b x (j + 1)).w1) '' {j | j < k})

theorem dirs_mono {k l : Nat} (h : k ≤ l) : dirs B L G sqrt b x k ≤ dirs B L G sqrt b x l :=
  Submodule.span_mono (Set.image_mono (fun _ hj => lt_of_lt_of_le hj h))

theorem w1_mem (k : Nat) : (seq B L G sqrt b x k).w1 ∈ dirs B L G sqrt b x k := by
  cases k with
  | zero => exact Submodule.zero_mem _
  | succ k => exact Submodule.subset_span ⟨k, by simp, rfl⟩

theorem w0_mem (k : Nat) : (seq B L G sqrt b x k).w0 ∈ dirs B L G sqrt b x k := by
  cases k with
  | zero => exact Submodule.zero_mem _
  | succ k => exact dirs_mono (Nat.le_succ k) (w1_mem k)

theorem x_mem (k : Nat) : (seq B L G sqrt b x k).x - x ∈ dirs B L G sqrt b x k := by
  induction k with
  | zero => simp [seq, init]
  | succ k ih =>
    have hx : (seq B L G sqrt b x (k + 1)).x = (seq B L G sqrt b x k).x
      + ((seq B L G sqrt b x (k + 1)).gamma2 * (seq B L G sqrt b x k).eta) • (seq B L G sqrt b x (k + 1)).w1 := rfl
    rw [hx, add_sub_right_comm]
    exact Submodule.add_mem _ (dirs_mono (Nat.le_succ k) ih) (Submodule.smul_mem _ _ (w1_mem (k + 1)))

/-- The residual is orthogonal to the images of all directions. -/
theorem resid_orth (H : Hyp B L G sqrt) (k : Nat) (hk : NoBreak B L G sqrt b x k) :
    ∀ y ∈ dirs B L G sqrt b x k, B (L y) (G (b - L (seq B L G sqrt b x k).x)) = 0 := by
  have key : ∀ j, j < k → B (L (seq B L G sqrt b x (j + 1)).w1) (G (b - L (seq B L G sqrt b x k).x)) = 0 := by
    intro j hj
    -- the image is orthogonal to every later residual vector
    have hbj : ∀ i, i < k → (seq B L G sqrt b x i).beta ≠ 0 := fun i hi => (hk i hi).1
    have hI : ∀ i, i < k → Img B L G sqrt b x i := fun i hi => img H i (fun l hl => hk l (by omega)) (hbj i hi)
    have e := img_next H j (fun l hl => hk l (by omega)) (hI j hj)
    cases k with
    | zero => omega
    | succ k =>
      have hkk : NoBreak B L G sqrt b x k := fun l hl => hk l (by omega)
      have hball : ∀ i, i ≤ k → (seq B L G sqrt b x i).beta ≠ 0 := fun i hi => hbj i (by omega)
      have hlan := lan_orth H k hball (lan_rel H k hball)
      rw [resid_next H k hk (resid H k hkk (hball k le_rfl))]
      simp only [H.linG.smul, H.linG.sub, H.bil.smul_right, H.bil.sub_right]
      by_cases hjk : j = k
      · subst hjk
        rw [e]
        simp only [H.bil.add_left, H.bil.smul_left]
        have hu := zz_unit H j hkk (hball j le_rfl)
        have ho := zz_orth H _ (j + 1) (fun i hi => hlan i (by omega))
        have hv := beta_sq (b := b) (x := x) H (j + 1)
        rw [form_symm H (seq B L G sqrt b x (j + 1)).v1 (zz B L G sqrt b x (j + 1)).1, ho, hu, ← hv]
        have e1 : (rho1 B L G sqrt (seq B L G sqrt b x j))⁻¹ * (seq B L G sqrt b x (j + 1)).beta
            = (seq B L G sqrt b x (j + 1)).sigma2 := by
          show _ = bnext B L G sqrt _ / _
          rw [div_eq_inv_mul]
          rfl
        rw [← e1]
        ring
      · -- a vector orthogonal to what comes later
        have hlt : j < k := by omega
        have hw : L (seq B L G sqrt b x (j + 1)).w1 = (seq B L G sqrt b x (j + 1)).gamma2 • (zz B L G sqrt b x (j + 1)).1
            + (seq B L G sqrt b x (j + 1)).sigma2 • lv B L G sqrt b x (j + 1) := (hI (j + 1) (by omega)).w1
        -- with all later Lanczos vectors
        have hq : ∀ i, j + 1 < i → i ≤ k → B (L (seq B L G sqrt b x (j + 1)).w1) (G (lv B L G sqrt b x i)) = 0 := by
          intro i h1 h2
          rw [hw, H.bil.add_left, H.bil.smul_left, H.bil.smul_left, lan_rel H k hball (j + 1) i h1 h2,
            zz_orth H _ (j + 1) (fun l hl => lan_rel H k hball l i (by omega) h2)]
          ring
        have hq' : B (L (seq B L G sqrt b x (j + 1)).w1) (G (seq B L G sqrt b x (k + 1)).v1) = 0 := by
          rw [hw, H.bil.add_left, H.bil.smul_left, H.bil.smul_left, hlan (j + 1) (by omega),
            zz_orth H _ (j + 1) (fun l hl => hlan l (by omega))]
          ring
        have hz : ∀ i, j + 2 ≤ i → i ≤ k + 1 → B (L (seq B L G sqrt b x (j + 1)).w1) (G (zz B L G sqrt b x i).1) = 0 := by
          intro i h1 h2
          induction i, h1 using Nat.le_induction with
          | base =>
            rw [zz_succ (j + 1), hw]
            simp only [H.linG.smul, H.linG.add, H.bil.smul_left, H.bil.add_left, H.bil.smul_right, H.bil.add_right]
            rw [zz_unit H j (fun l hl => hk l (by omega)) (hball j (by omega)), lv_unit H (j + 1) (hball (j + 1) (by omega)),
              zz_orth H _ (j + 1) (fun l hl => lan_rel H k hball l (j + 1) (by omega) (by omega)),
              form_symm H (lv B L G sqrt b x (j + 1)),
              zz_orth H _ (j + 1) (fun l hl => lan_rel H k hball l (j + 1) (by omega) (by omega))]
            ring
          | succ i h1 ih =>
            rw [zz_succ i, H.linG.add, H.linG.smul, H.linG.smul, H.bil.add_right, H.bil.smul_right, H.bil.smul_right,
              ih (by omega), hq i (by omega) (by omega)]
            ring
        rw [hz (k + 1) (by omega) le_rfl, hq']
        ring
  intro y hy
  unfold dirs at hy
  induction hy using Submodule.span_induction with
  | mem y hy =>
    obtain ⟨j, hj, rfl⟩ := hy
    exact key j hj
  | zero =>
    rw [Lin.zero H.linL]
    have := H.bil.smul_left 0 (0 : V) (G (b - L (seq B L G sqrt b x k).x))
    simpa using this
  | add u v _ _ h1 h2 => rw [H.linL.add, H.bil.add_left, h1, h2, add_zero]
  | smul c u _ h => rw [H.linL.smul, H.bil.smul_left, h, mul_zero]

theorem minimal (H : Hyp B L G sqrt) (k : Nat) (hk : NoBreak B L G sqrt b x k) (y : V) (hy : y ∈ dirs B L G sqrt b x k) :
    B (b - L (seq B L G sqrt b x k).x) (G (b - L (seq B L G sqrt b x k).x)) ≤ B (b - L (x + y)) (G (b - L (x + y))) := by
  have hd : (seq B L G sqrt b x k).x - (x + y) ∈ dirs B L G sqrt b x k := by
    rw [← sub_sub]
    exact Submodule.sub_mem _ (x_mem k) hy
  have h0 := resid_orth H k hk _ hd
  have e : b - L (x + y) = (b - L (seq B L G sqrt b x k).x) + L ((seq B L G sqrt b x k).x - (x + y)) := by
    rw [H.linL.sub, sub_add_sub_cancel]
  rw [e]
  generalize L ((seq B L G sqrt b x k).x - (x + y)) = d at *
  generalize b - L (seq B L G sqrt b x k).x = r at *
  rw [H.linG.add, H.bil.add_left, H.bil.add_right, H.bil.add_right, h0, form_symm H r d, h0]
  have := H.pos d
  linarith

/-! ## The Krylov space -/

/-- `(G L)^j G r`. -/
def kry (L G : V → V) (r : V) : Nat → V
  | 0 => G r
  | j + 1 => G (L (kry L G r j))

/-- The Krylov space of dimension at most `k`. -/
def krylov (K : Type) {V : Type} [Field K] [AddCommGroup V] [Module K V] (L G : V → V) (r : V) (k : Nat) : Submodule K V :=
  Submodule.span K (kry L G r '' {j | j < k})

theorem krylov_mono {r : V} {k l : Nat} (h : k ≤ l) : krylov K L G r k ≤ krylov K L G r l :=
  Submodule.span_mono (Set.image_mono (fun _ hj => lt_of_lt_of_le hj h))

theorem krylov_step (hL : Cg.Lin (K := K) L) (hG : Cg.Lin (K := K) G) {r y : V} {k : Nat} (hy : y ∈ krylov K L G r k) :
    G (L y) ∈ krylov K L G r (k + 1) := by
  unfold krylov at hy
  induction hy using Submodule.span_induction with
  | mem y hy =>
    obtain ⟨j, hj, rfl⟩ := hy
    exact Submodule.subset_span ⟨j + 1, Nat.succ_lt_succ hj, rfl⟩
  | zero => rw [Lin.zero hL, Lin.zero hG]; exact Submodule.zero_mem _
  | add u v _ _ h1 h2 => rw [hL.add, hG.add]; exact Submodule.add_mem _ h1 h2
  | smul c u _ h => rw [hL.smul, hG.smul]; exact Submodule.smul_mem _ _ h

theorem v1_krylov (H : Hyp B L G sqrt) (k : Nat) : G (seq B L G sqrt b x k).v1 ∈ krylov K L G (b - L x) (k + 1) ∧
    G (seq B L G sqrt b x k).v0 ∈ krylov K L G (b - L x) (k + 1) := by
  induction k with
  | zero =>
    refine ⟨Submodule.subset_span ⟨0, by simp, rfl⟩, ?_⟩
    show G 0 ∈ _
    rw [Lin.zero H.linG]
    exact Submodule.zero_mem _
  | succ k ih =>
    have hc : G (lv B L G sqrt b x k) ∈ krylov K L G (b - L x) (k + 1) := by
      unfold lv cur
      rw [H.linG.smul]
      exact Submodule.smul_mem _ _ ih.1
    refine ⟨?_, krylov_mono (Nat.le_succ _) hc⟩
    have e : (seq B L G sqrt b x (k + 1)).v1 = L (G (lv B L G sqrt b x k))
      - (seq B L G sqrt b x k).beta • (seq B L G sqrt b x k).v0 - alpha B L G (seq B L G sqrt b x k) • lv B L G sqrt b x k := rfl
    rw [e, H.linG.sub, H.linG.sub, H.linG.smul, H.linG.smul]
    exact Submodule.sub_mem _ (Submodule.sub_mem _ (krylov_step H.linL H.linG hc)
      (Submodule.smul_mem _ _ (krylov_mono (Nat.le_succ _) ih.2))) (Submodule.smul_mem _ _ (krylov_mono (Nat.le_succ _) hc))

theorem w1_krylov (H : Hyp B L G sqrt) (k : Nat) : (seq B L G sqrt b x k).w1 ∈ krylov K L G (b - L x) k ∧
    (seq B L G sqrt b x k).w0 ∈ krylov K L G (b - L x) k := by
  induction k with
  | zero => exact ⟨Submodule.zero_mem _, Submodule.zero_mem _⟩
  | succ k ih =>
    refine ⟨?_, krylov_mono (Nat.le_succ _) ih.1⟩
    simp only [seq, step]
    have hc : G (cur (seq B L G sqrt b x k)) ∈ krylov K L G (b - L x) (k + 1) := by
      unfold cur
      rw [H.linG.smul]
      exact Submodule.smul_mem _ _ (v1_krylov H k).1
    exact Submodule.sub_mem _ (Submodule.sub_mem _ (Submodule.smul_mem _ _ hc)
      (Submodule.smul_mem _ _ (krylov_mono (Nat.le_succ _) ih.2))) (Submodule.smul_mem _ _ (krylov_mono (Nat.le_succ _) ih.1))

theorem dirs_le (H : Hyp B L G sqrt) (k : Nat) : dirs B L G sqrt b x k ≤ krylov K L G (b - L x) k := by
  unfold dirs
  rw [Submodule.span_le]
  rintro _ ⟨j, hj, rfl⟩
  exact krylov_mono (Nat.succ_le_of_lt hj) (w1_krylov H (j + 1)).1

/-- Each preconditioned Lanczos vector is a combination of directions. -/
theorem lv_dirs (k : Nat) (hr : rho1 B L G sqrt (seq B L G sqrt b x k) ≠ 0) :
    G (lv B L G sqrt b x k) ∈ dirs B L G sqrt b x (k + 1) := by
  have e := wnext_eq (seq B L G sqrt b x k) hr
  have : G (lv B L G sqrt b x k) = rho1 B L G sqrt (seq B L G sqrt b x k) • (seq B L G sqrt b x (k + 1)).w1
      + rho3 (seq B L G sqrt b x k) • (seq B L G sqrt b x k).w0 + rho2 B L G (seq B L G sqrt b x k) • (seq B L G sqrt b x k).w1 := by
    rw [show seq B L G sqrt b x (k + 1) = step B L G sqrt (seq B L G sqrt b x k) from rfl, e, smul_smul, mul_inv_cancel₀ hr, one_smul]
    unfold wraw lv
    module
  rw [this]
  exact Submodule.add_mem _ (Submodule.add_mem _ (Submodule.smul_mem _ _ (w1_mem (k + 1)))
    (Submodule.smul_mem _ _ (dirs_mono (Nat.le_succ k) (w0_mem k)))) (Submodule.smul_mem _ _ (dirs_mono (Nat.le_succ k) (w1_mem k)))

/-- The span of the preconditioned Lanczos vectors. -/
theorem kry_lv (H : Hyp B L G sqrt) (k : Nat) (hb : ∀ j, j ≤ k → (seq B L G sqrt b x j).beta ≠ 0) :
    kry L G (b - L x) k ∈ Submodule.span K ((fun j => G (lv B L G sqrt b x j)) '' {j | j ≤ k}) := by
  induction k with
  | zero =>
    show G (b - L x) ∈ _
    have e : b - L x = (seq B L G sqrt b x 0).beta • lv B L G sqrt b x 0 := v1_eq 0 (hb 0 le_rfl)
    rw [e, H.linG.smul]
    exact Submodule.smul_mem _ _ (Submodule.subset_span ⟨0, by simp, rfl⟩)
  | succ k ih =>
    have I := ih (fun j hj => hb j (by omega))
    show G (L (kry L G (b - L x) k)) ∈ _
    generalize kry L G (b - L x) k = y at I
    induction I using Submodule.span_induction with
    | mem y hy =>
      obtain ⟨j, hj, rfl⟩ := hy
      have hj : j ≤ k := hj
      show G (L (G (lv B L G sqrt b x j))) ∈ _
      rw [lan_apply (B := B) (L := L) (G := G) (sqrt := sqrt) (b := b) (x := x) j, H.linG.add, H.linG.add, H.linG.smul, H.linG.smul, v1_eq (j + 1) (hb _ (by omega)), H.linG.smul]
      refine Submodule.add_mem _ (Submodule.add_mem _ (Submodule.smul_mem _ _ (Submodule.subset_span ⟨j + 1, ?_, rfl⟩))
        (Submodule.smul_mem _ _ ?_)) (Submodule.smul_mem _ _ (Submodule.subset_span ⟨j, ?_, rfl⟩))
      · show j + 1 ≤ k + 1; omega
      · cases j with
        | zero =>
          show G 0 ∈ _
          rw [Lin.zero H.linG]
          exact Submodule.zero_mem _
        | succ j => exact Submodule.subset_span ⟨j, by show j ≤ k + 1; omega, rfl⟩
      · show j ≤ k + 1; omega
    | zero => rw [Lin.zero H.linL, Lin.zero H.linG]; exact Submodule.zero_mem _
    | add u v _ _ h1 h2 => rw [H.linL.add, H.linG.add]; exact Submodule.add_mem _ h1 h2
    | smul c u _ h => rw [H.linL.smul, H.linG.smul]; exact Submodule.smul_mem _ _ h

theorem krylov_le (H : Hyp B L G sqrt) (k : Nat) (hk : NoBreak B L G sqrt b x k) :
    krylov K L G (b - L x) k ≤ dirs B L G sqrt b x k := by
  unfold krylov
  rw [Submodule.span_le]
  rintro _ ⟨j, hj, rfl⟩
  have hj : j < k := hj
  have h1 := kry_lv H j (fun i hi => (hk i (by omega)).1)
  refine Submodule.span_le.mpr ?_ h1
  rintro _ ⟨i, hi, rfl⟩
  have hi : i ≤ j := hi
  exact dirs_mono (by omega) (lv_dirs i (hk i (by omega)).2)

/-- The residual is the smallest over the Krylov space, and the iterate lies in it. -/
theorem minimal_krylov (H : Hyp B L G sqrt) (k : Nat) (hk : NoBreak B L G sqrt b x k) :
    (seq B L G sqrt b x k).x - x ∈ krylov K L G (b - L x) k ∧
    ∀ y ∈ krylov K L G (b - L x) k, B (b - L (seq B L G sqrt b x k).x) (G (b - L (seq B L G sqrt b x k).x))
      ≤ B (b - L (x + y)) (G (b - L (x + y))) :=
  ⟨dirs_le H k (x_mem k), fun y hy => minimal H k hk y (krylov_le H k hk hy)⟩

/-! ## Breakdown -/

/-- A later Lanczos vector is orthogonal to the directions. -/
theorem w_orth (H : Hyp B L G sqrt) (i : Nat) (hb : ∀ j, j ≤ i → (seq B L G sqrt b x j).beta ≠ 0) (j : Nat) (hj : j ≤ i) :
    B (lv B L G sqrt b x i) (seq B L G sqrt b x j).w1 = 0 ∧ B (lv B L G sqrt b x i) (seq B L G sqrt b x j).w0 = 0 := by
  have z : B (lv B L G sqrt b x i) 0 = 0 := by
    have := H.bil.smul_right 0 (lv B L G sqrt b x i) (0 : V)
    simpa using this
  induction j with
  | zero => exact ⟨z, z⟩
  | succ j ih =>
    obtain ⟨h1, h0⟩ := ih (by omega)
    refine ⟨?_, h1⟩
    simp only [seq, step]
    rw [H.bil.sub_right, H.bil.sub_right, H.bil.smul_right, H.bil.smul_right, H.bil.smul_right, h1, h0]
    have : B (lv B L G sqrt b x i) (G (cur (seq B L G sqrt b x j))) = 0 := by
      rw [form_symm H]
      exact lan_rel H i hb j i (by omega) le_rfl
    rw [this]
    ring

/-- If `rho1` vanishes, `L` maps the direction, which has a part along the last Lanczos vector, to a vector of norm 0. -/
theorem rho1_zero (H : Hyp B L G sqrt) (k : Nat) (hk : NoBreak B L G sqrt b x k) (hb : (seq B L G sqrt b x k).beta ≠ 0)
    (h : rho1 B L G sqrt (seq B L G sqrt b x k) = 0) :
    ∃ d, B (lv B L G sqrt b x k) d = 1 ∧ d ∈ krylov K L G (b - L x) (k + 1) ∧ B (L d) (G (L d)) = 0 := by
  have e := rho1_sq H (seq B L G sqrt b x k)
  rw [h, mul_zero] at e
  have h1 : delta B L G (seq B L G sqrt b x k) = 0 := by
    have := mul_self_nonneg (delta B L G (seq B L G sqrt b x k))
    have := mul_self_nonneg (bnext B L G sqrt (seq B L G sqrt b x k))
    exact mul_self_eq_zero.mp (by linarith)
  have h2 : bnext B L G sqrt (seq B L G sqrt b x k) * bnext B L G sqrt (seq B L G sqrt b x k) = 0 := by
    rw [h1] at e; linarith
  have hball : ∀ j, j ≤ k → (seq B L G sqrt b x j).beta ≠ 0 := by
    intro j hj
    rcases Nat.lt_or_ge j k with h | h
    · exact (hk j h).1
    · obtain rfl : j = k := by omega
      exact hb
  refine ⟨wraw B L G (seq B L G sqrt b x k), ?_, ?_, ?_⟩
  rotate_left
  · have hc : G (cur (seq B L G sqrt b x k)) ∈ krylov K L G (b - L x) (k + 1) := by
      unfold cur
      rw [H.linG.smul]
      exact Submodule.smul_mem _ _ (v1_krylov H k).1
    exact Submodule.sub_mem _ (Submodule.sub_mem _ hc (Submodule.smul_mem _ _ (krylov_mono (Nat.le_succ _) (w1_krylov H k).2)))
      (Submodule.smul_mem _ _ (krylov_mono (Nat.le_succ _) (w1_krylov H k).1))
  rotate_left
  · obtain ⟨o1, o0⟩ := w_orth H k hball k le_rfl
    unfold wraw
    rw [H.bil.sub_right, H.bil.sub_right, H.bil.smul_right, H.bil.smul_right, o1, o0]
    have := lv_unit H k hb
    unfold lv at this ⊢
    rw [this]
    ring
  · have hi := img_raw H k hk (img H k hk hb)
    rw [h1, zero_smul, zero_add] at hi
    rw [hi, ← bnext_sq H, h2]

/-- If the system has a solution, `rho1` does not vanish. -/
theorem rho1_ne (H : Hyp B L G sqrt) (hdef : ∀ v, B v (G v) = 0 → ∀ y, B v y = 0) (e0 : V)
    (hcons : ∀ y, B (b - L x) y = B (L e0) y) (k : Nat) (hk : NoBreak B L G sqrt b x k)
    (hb : (seq B L G sqrt b x k).beta ≠ 0) : rho1 B L G sqrt (seq B L G sqrt b x k) ≠ 0 := by
  intro h
  obtain ⟨d, hd, hm, h0⟩ := rho1_zero H k hk hb h
  -- the direction is the preconditioned image of something
  have key : ∀ d ∈ krylov K L G (b - L x) (k + 1), ∃ e, ∀ y, B d y = B (G (L e)) y := by
    intro d hd
    unfold krylov at hd
    induction hd using Submodule.span_induction with
    | mem d hd =>
      obtain ⟨j, hj, rfl⟩ := hd
      cases j with
      | zero =>
        refine ⟨e0, fun y => ?_⟩
        show B (G (b - L x)) y = _
        rw [H.symG, hcons, H.symG]
      | succ j => exact ⟨kry L G (b - L x) j, fun y => rfl⟩
    | zero =>
      refine ⟨0, fun y => ?_⟩
      rw [Lin.zero H.linL, Lin.zero H.linG]
    | add u v _ _ h1 h2 =>
      obtain ⟨e1, h1⟩ := h1
      obtain ⟨e2, h2⟩ := h2
      refine ⟨e1 + e2, fun y => ?_⟩
      rw [H.linL.add, H.linG.add, H.bil.add_left, H.bil.add_left, h1, h2]
    | smul c u _ h1 =>
      obtain ⟨e1, h1⟩ := h1
      refine ⟨c • e1, fun y => ?_⟩
      rw [H.linL.smul, H.linG.smul, H.bil.smul_left, H.bil.smul_left, h1]
  obtain ⟨e, he⟩ := key d hm
  have h1 := hdef _ h0 e
  rw [H.symL, he, H.symG] at h1
  have h2 := hdef _ h1
  rw [H.bil.symm, he, H.symG, h2] at hd
  exact zero_ne_one hd

/-- Linear combinations of the Krylov vectors. -/
theorem krylov_mem_iff {r y : V} {k : Nat} :
    y ∈ krylov K L G r k ↔ ∃ c : Nat → K, y = ∑ j ∈ Finset.range k, c j • kry L G r j := by
  constructor
  · intro hy
    unfold krylov at hy
    induction hy using Submodule.span_induction with
    | mem y hy =>
      obtain ⟨j, hj, rfl⟩ := hy
      refine ⟨fun i => if i = j then 1 else 0, ?_⟩
      rw [Finset.sum_eq_single j]
      · simp
      · intro i _ hij; simp [hij]
      · intro h; exact absurd (Finset.mem_range.mpr hj) h
    | zero => exact ⟨fun _ => 0, by simp⟩
    | add u v _ _ h1 h2 =>
      obtain ⟨c1, rfl⟩ := h1
      obtain ⟨c2, rfl⟩ := h2
      refine ⟨fun i => c1 i + c2 i, ?_⟩
      rw [← Finset.sum_add_distrib]
      exact Finset.sum_congr rfl (fun i _ => (add_smul _ _ _).symm)
    | smul t u _ h1 =>
      obtain ⟨c1, rfl⟩ := h1
      refine ⟨fun i => t * c1 i, ?_⟩
      rw [Finset.smul_sum]
      exact Finset.sum_congr rfl (fun i _ => smul_smul _ _ _)
  · rintro ⟨c, rfl⟩
    exact Submodule.sum_mem _ (fun j hj => Submodule.smul_mem _ _ (Submodule.subset_span ⟨j, Finset.mem_range.mp hj, rfl⟩))

end Ordered
end Mr
end Linalg
