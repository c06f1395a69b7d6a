import Verif.Props.Double
import Verif.Spec.DblSqrt
import Verif.Spec.FltDiv

/-!
# C135: norms in double precision

`L2Norm` and `Normalize` with the square root of IEEE 754.
-/

set_option exponentiation.threshold 2000

namespace Linalg
open Cpp Floats Io

namespace Dbl

/-! ## The square root -/

/-- **C135.**  `std::sqrt` returns the `double` nearest to the square root; the error is at most 2⁻⁵³ times the root; roots that are `double`s are exact; negative
numbers give NaN. -/
theorem C135_sqrt (a : Dbl) :
    (∀ q : ℚ, a.ext = .fin q → 0 ≤ q → ∃ r : ℚ, (sqrt a).ext = .fin r ∧ 0 ≤ r ∧ |Real.sqrt q - r| ≤ (1 / 2) ^ 53 * Real.sqrt q ∧
      (∀ d : ℚ, IsDouble d → |Real.sqrt q - r| ≤ |Real.sqrt q - d|) ∧ ∀ d : ℚ, IsDouble d → q = d * d → r = |d|) ∧
    (∀ q : ℚ, a.ext = .fin q → q < 0 → IsNan (sqrt a)) ∧ (a.ext = .inf false → sqrt a = a) ∧ (a.ext = .inf true → IsNan (sqrt a)) ∧ (IsNan a → IsNan (sqrt a)) := by
  refine ⟨fun q ha hq => ⟨sqrtBin q, sqrt_fin ha hq, ?_⟩, fun q ha hq => ?_, fun ha => ?_, fun ha => ?_, fun ha => ?_⟩
  · have hd := a.isDouble q ha
    rcases hq.eq_or_lt with rfl | h0
    · rw [sqrtBin_zero]
      refine ⟨le_rfl, by simp, fun d _ => by simp, fun d _ h => ?_⟩
      have : d = 0 := by simpa using h.symm
      simp [this]
    · obtain ⟨-, h2, h3, h4⟩ := sqrtBin_nearest h0 hd
      refine ⟨h2.le, h4, h3, fun d h5 h6 => ?_⟩
      have e : Real.sqrt q = ((|d| : ℚ) : ℝ) := by
        rw [h6]
        push_cast
        exact Real.sqrt_mul_self_eq_abs _
      have := h3 |d| h5.abs
      rw [e, sub_self, abs_zero] at this
      have := abs_nonpos_iff.mp this
      have : ((|d| : ℚ) : ℝ) = ((sqrtBin q : ℚ) : ℝ) := by linarith
      exact_mod_cast this.symm
  · rw [isNan_iff]
    unfold sqrt
    rw [ha]
    simp only [hq, if_true]
  · apply ext_inj
    unfold sqrt
    rw [ha]
    rfl
  · rw [isNan_iff]
    unfold sqrt
    rw [ha]
    rfl
  · rw [isNan_iff] at *
    unfold sqrt
    rw [ha]

theorem isDblSqrt_sqrt : IsDblSqrt sqrt := by
  constructor
  · exact ext_inj (by decide +kernel)
  · rfl

/-! ## The norm -/

/-- The norm of the vector, without rounding. -/
noncomputable def norm (x : List Dbl) : ℝ := Real.sqrt ((x.map (fun a => (a.toRat : ℝ) * a.toRat)).sum)

/-- Vectors whose norm neither overflows nor underflows: up to 2⁴⁰ elements, none above 2⁴⁸⁰, and not all below 2⁻⁴⁸⁰. -/
structure InRange (x : List Dbl) : Prop where
  size : x.length ≤ 2 ^ 40
  fin : ∀ a ∈ x, IsFin a
  upper : ∀ a ∈ x, |a.toRat| ≤ 2 ^ 480
  lower : ∃ a ∈ x, 1 / 2 ^ 480 ≤ |a.toRat|

theorem pow_le (u : ℝ) (hu : 0 ≤ u) (m : Nat) : (1 + u) ^ m * (1 - m * u) ≤ 1 := by
  induction m with
  | zero => simp
  | succ m ih =>
    have h : (1 + u) * (1 - (m + 1) * u) ≤ 1 - m * u := by nlinarith [mul_nonneg (Nat.cast_nonneg (α := ℝ) m) (mul_nonneg hu hu), mul_nonneg hu hu]
    have hp : 0 ≤ (1 + u) ^ m := by positivity
    calc (1 + u) ^ (m + 1) * (1 - ((m + 1 : Nat) : ℝ) * u) = (1 + u) ^ m * ((1 + u) * (1 - (m + 1) * u)) := by push_cast; ring
      _ ≤ (1 + u) ^ m * (1 - m * u) := mul_le_mul_of_nonneg_left h hp
      _ ≤ 1 := ih

/-- The unit roundoff. -/
noncomputable def ulp : ℝ := (1 / 2) ^ 53

theorem ulp_pos : 0 < ulp := by unfold ulp; positivity

theorem size_ulp {n : Nat} (h : n ≤ 2 ^ 40) : ((n : ℝ) + 1) * ulp ≤ 1 / 8000 := by
  have : (n : ℝ) ≤ 2 ^ 40 := by exact_mod_cast h
  unfold ulp
  have : ((n : ℝ) + 1) * (1 / 2) ^ 53 ≤ (2 ^ 40 + 1) * (1 / 2) ^ 53 := mul_le_mul_of_nonneg_right (by linarith) (by positivity)
  refine this.trans ?_
  norm_num

theorem relErr_le {n : Nat} (h : n ≤ 2 ^ 40) : relErr Dbl n ≤ 1.001 * ((n + 1) * ulp) := by
  have h1 := pow_le ulp ulp_pos.le (n + 1)
  have h2 := size_ulp h
  have h3 : (0 : ℝ) ≤ ((n : ℝ) + 1) * ulp := by have := ulp_pos; positivity
  have e : relErr Dbl n = (1 + ulp) ^ (n + 1) - 1 := rfl
  rw [e]
  push_cast at h1
  generalize (1 + ulp) ^ (n + 1) = P at *
  generalize ((n : ℝ) + 1) * ulp = m at *
  by_contra hc
  have : 1 + 1.001 * m < P := by linarith
  nlinarith

theorem absErr_le {n : Nat} (h : n ≤ 2 ^ 40) : absErr Dbl n ≤ 1 / 2 ^ 1034 := by
  have h1 := pow_le ulp ulp_pos.le n
  have h2 := size_ulp h
  have hn : (n : ℝ) ≤ 2 ^ 40 := by exact_mod_cast h
  have hn0 : (0 : ℝ) ≤ n := Nat.cast_nonneg n
  have e : absErr Dbl n = n * (1 + ulp) ^ n * (2 ^ (-1074 : Int) / 2) := rfl
  rw [e]
  have hP : (1 + ulp) ^ n ≤ 2 := by
    have h3 : (n : ℝ) * ulp ≤ 1 / 8000 := by have := ulp_pos; nlinarith
    have h4 : 0 ≤ (1 + ulp) ^ n := by have := ulp_pos; positivity
    generalize (1 + ulp) ^ n = P at *
    nlinarith
  have hP0 : 0 ≤ (1 + ulp) ^ n := by have := ulp_pos; positivity
  have : (n : ℝ) * (1 + ulp) ^ n ≤ 2 ^ 40 * 2 := mul_le_mul hn hP hP0 (by positivity)
  have p : (0 : ℝ) ≤ 2 ^ (-1074 : Int) / 2 := by positivity
  refine (mul_le_mul_of_nonneg_right this p).trans (le_of_eq ?_)
  rw [zpow_neg, show ((1074 : Int)) = ((1074 : Nat) : Int) from rfl, zpow_natCast]
  norm_num

theorem zip_self (x : List Dbl) : x.zip x = x.map (fun a => (a, a)) := by
  induction x with
  | nil => rfl
  | cons a x ih => rw [List.zip_cons_cons, ih, List.map_cons]

theorem sq_sum_nonneg (x : List Dbl) : 0 ≤ (x.map (fun a => (a.toRat : ℝ) * a.toRat)).sum :=
  List.sum_nonneg (fun _ h => by
    obtain ⟨a, -, rfl⟩ := List.mem_map.mp h
    exact mul_self_nonneg _)

theorem sq_le_sum {x : List Dbl} {a : Dbl} (h : a ∈ x) : (a.toRat : ℝ) * a.toRat ≤ (x.map (fun a => (a.toRat : ℝ) * a.toRat)).sum :=
  List.single_le_sum (fun _ h => by
    obtain ⟨a, -, rfl⟩ := List.mem_map.mp h
    exact mul_self_nonneg _) _ (List.mem_map_of_mem h)

theorem InRange.sum_bounds {x : List Dbl} (h : InRange x) :
    1 / 2 ^ 960 ≤ (x.map (fun a => (a.toRat : ℝ) * a.toRat)).sum ∧ (x.map (fun a => (a.toRat : ℝ) * a.toRat)).sum ≤ 2 ^ 1000 := by
  constructor
  · obtain ⟨a, ha, hl⟩ := h.lower
    refine le_trans ?_ (sq_le_sum ha)
    have hl' : (1 / 2 ^ 480 : ℝ) ≤ |(a.toRat : ℝ)| := by
      have := (Rat.cast_le (K := ℝ)).mpr hl
      push_cast at this
      exact this
    rw [← abs_mul_abs_self]
    calc (1 / 2 ^ 960 : ℝ) = 1 / 2 ^ 480 * (1 / 2 ^ 480) := by norm_num
      _ ≤ _ := mul_le_mul hl' hl' (by positivity) (abs_nonneg _)
  · have key : ∀ y : List Dbl, (∀ a ∈ y, |a.toRat| ≤ 2 ^ 480) → (y.map (fun a => (a.toRat : ℝ) * a.toRat)).sum ≤ y.length * 2 ^ 960 := by
      intro y
      induction y with
      | nil => simp
      | cons a y ih =>
        intro hy
        have h1 := ih (fun b hb => hy b (by simp [hb]))
        have h2 : |(a.toRat : ℝ)| ≤ 2 ^ 480 := by
          have := (Rat.cast_le (K := ℝ)).mpr (hy a (by simp))
          push_cast at this
          exact this
        have h3 : (a.toRat : ℝ) * a.toRat ≤ 2 ^ 960 := by
          rw [← abs_mul_abs_self]
          calc |(a.toRat : ℝ)| * |(a.toRat : ℝ)| ≤ 2 ^ 480 * 2 ^ 480 := mul_le_mul h2 h2 (abs_nonneg _) (by positivity)
            _ = 2 ^ 960 := by norm_num
        rw [List.map_cons, List.sum_cons, List.length_cons]
        push_cast
        generalize (2 : ℝ) ^ 960 = B at *
        linarith
    refine (key x h.upper).trans ?_
    have : (x.length : ℝ) ≤ 2 ^ 40 := by exact_mod_cast h.size
    calc (x.length : ℝ) * 2 ^ 960 ≤ 2 ^ 40 * 2 ^ 960 := mul_le_mul_of_nonneg_right this (by positivity)
      _ = 2 ^ 1000 := by norm_num

/-- From the squares to the norms. -/
theorem sqrt_close {s N θ : ℝ} (hN : 0 < N) (hθ : θ ≤ 1 / 1000) (h : |s - N| ≤ θ * N) :
    0 < s ∧ |Real.sqrt s - Real.sqrt N| ≤ θ / 1.999 * Real.sqrt N ∧ Real.sqrt s ≤ 1.001 * Real.sqrt N := by
  have h' := abs_le.mp h
  have θ0 : 0 ≤ θ := by
    have := (abs_nonneg _).trans h
    exact nonneg_of_mul_nonneg_left this hN
  have s1 : 0.999 * N ≤ s := by nlinarith
  have s2 : s ≤ 1.001 * N := by nlinarith
  have s0 : 0 < s := by nlinarith
  have r0 : 0 < Real.sqrt N := Real.sqrt_pos.mpr hN
  have a1 : 0.999 * Real.sqrt N ≤ Real.sqrt s := by
    apply Real.le_sqrt_of_sq_le
    rw [mul_pow, Real.sq_sqrt hN.le]
    nlinarith
  have a2 : Real.sqrt s ≤ 1.001 * Real.sqrt N := by
    rw [Real.sqrt_le_left (by positivity), mul_pow, Real.sq_sqrt hN.le]
    nlinarith
  refine ⟨s0, ?_, a2⟩
  have e : (Real.sqrt s - Real.sqrt N) * (Real.sqrt s + Real.sqrt N) = s - N := by
    have := Real.mul_self_sqrt s0.le
    have := Real.mul_self_sqrt hN.le
    nlinarith
  have e2 : |Real.sqrt s - Real.sqrt N| * (Real.sqrt s + Real.sqrt N) ≤ θ * N := by
    rw [← abs_of_nonneg (a := Real.sqrt s + Real.sqrt N) (by positivity), ← abs_mul, e]
    exact h
  have e3 : θ * N = θ * Real.sqrt N * Real.sqrt N := by rw [mul_assoc, Real.mul_self_sqrt hN.le]
  rw [e3] at e2
  have hd := abs_nonneg (Real.sqrt s - Real.sqrt N)
  have e4 : |Real.sqrt s - Real.sqrt N| * (1.999 * Real.sqrt N) ≤ θ * Real.sqrt N * Real.sqrt N :=
    le_trans (mul_le_mul_of_nonneg_left (by linarith) hd) e2
  have e5 : |Real.sqrt s - Real.sqrt N| * 1.999 ≤ θ * Real.sqrt N := by
    have : |Real.sqrt s - Real.sqrt N| * 1.999 * Real.sqrt N ≤ θ * Real.sqrt N * Real.sqrt N := by linarith
    exact le_of_mul_le_mul_right this r0
  rw [div_mul_eq_mul_div, le_div_iff₀ (by norm_num)]
  exact e5

theorem norm_pos {x : List Dbl} (h : InRange x) : 0 < norm x :=
  Real.sqrt_pos.mpr (lt_of_lt_of_le (by positivity) h.sum_bounds.1)

theorem norm_core {x : List Dbl} (h : InRange x) : ∃ v r, Vec.l2Norm sqrt x = .ok v ∧ v.ext = .fin r ∧ 0 < r ∧
    |(r : ℝ) - norm x| ≤ (0.502 * (x.length + 1) + 1.001) * ulp * norm x := by
  obtain ⟨s, hs, hr⟩ := C130_inner (F := Dbl) x x rfl
  rw [zip_self] at hr
  have hsum : ((x.map (fun a => (a, a))).map (fun p : Dbl × Dbl => RoundLaws.val p.1 * RoundLaws.val p.2)).sum
      = (x.map (fun a => (a.toRat : ℝ) * a.toRat)).sum := by rw [List.map_map]; rfl
  have habs : ((x.map (fun a => (a, a))).map (fun p : Dbl × Dbl => |RoundLaws.val p.1 * RoundLaws.val p.2|)).sum
      = (x.map (fun a => (a.toRat : ℝ) * a.toRat)).sum := by
    rw [List.map_map]
    congr 1
    refine List.map_congr_left (fun a _ => ?_)
    exact abs_mul_self (a.toRat : ℝ)
  obtain ⟨n1, n2⟩ := h.sum_bounds
  have hrel := relErr_le h.size
  have habsE := absErr_le h.size
  have hsz := size_ulp h.size
  have hrel0 := relErr_nonneg (F := Dbl) x.length
  have hfin : IsFin s := by
    refine hr.fin ?_ ?_
    · intro p hp
      obtain ⟨a, ha, rfl⟩ := List.mem_map.mp hp
      exact ⟨h.fin a ha, h.fin a ha⟩
    · rw [habs, List.length_map]
      have hb : (2 : ℝ) ^ 1002 ≤ RangeLaws.big Dbl := by
        have : (2 : ℚ) ^ 1002 ≤ largest := by decide +kernel
        have := (Rat.cast_le (K := ℝ)).mpr this
        push_cast at this
        exact this
      refine le_trans ?_ hb
      have h1 : (1 + relErr Dbl x.length) * (x.map (fun a => (a.toRat : ℝ) * a.toRat)).sum ≤ 2 * 2 ^ 1000 :=
        mul_le_mul (by nlinarith) n2 (sq_sum_nonneg x) (by norm_num)
      have h2 : (1 / 2 ^ 1034 : ℝ) ≤ 2 ^ 1000 := by norm_num
      have h3 : (2 : ℝ) ^ 1002 = 4 * 2 ^ 1000 := by norm_num
      generalize (2 : ℝ) ^ 1000 = B at *
      linarith [(by positivity : (0 : ℝ) ≤ 1 / 2 ^ 1034)]
  have herr := hr.err hfin
  rw [hsum, habs, List.length_map] at herr
  obtain ⟨sq, hsq⟩ := (isFin_iff s).mp hfin
  have hval : RoundLaws.val s = ((sq : ℚ) : ℝ) := by
    show ((toRat s : ℚ) : ℝ) = _
    unfold toRat
    rw [hsq]
  rw [hval] at herr
  unfold norm
  set N := (x.map (fun a => (a.toRat : ℝ) * a.toRat)).sum with hNdef
  have hN : 0 < N := lt_of_lt_of_le (by positivity) n1
  have hu := ulp_pos
  have hu' : (1 / 2 ^ 1034 : ℝ) ≤ 0.001 * ulp * (1 / 2 ^ 960) := by
    unfold ulp
    norm_num
  clear n2 hr
  generalize (1 / 2 ^ 1034 : ℝ) = e1 at *
  generalize (1 / 2 ^ 960 : ℝ) = e2 at *
  generalize relErr Dbl x.length = R at *
  generalize absErr Dbl x.length = E at *
  have hn : (0 : ℝ) ≤ x.length := Nat.cast_nonneg _
  have h1 : |(sq : ℝ) - N| ≤ (1.002 * ((x.length + 1) * ulp)) * N := by
    refine herr.trans ?_
    have a1 : R * N ≤ 1.001 * ((x.length + 1) * ulp) * N := mul_le_mul_of_nonneg_right hrel hN.le
    have a2 : E ≤ 0.001 * ulp * N := habsE.trans (hu'.trans (mul_le_mul_of_nonneg_left n1 (by positivity)))
    have a3 : ulp * N ≤ (x.length + 1) * ulp * N := by
      have : (0 : ℝ) ≤ x.length := Nat.cast_nonneg _
      have : 0 ≤ (x.length : ℝ) * (ulp * N) := by positivity
      nlinarith
    nlinarith
  obtain ⟨s0, c1, c2⟩ := sqrt_close hN (by nlinarith) h1
  have sq0 : 0 < sq := by exact_mod_cast s0
  obtain ⟨-, r0, -, c3⟩ := sqrtBin_nearest sq0 (s.isDouble sq hsq)
  refine ⟨sqrt s, sqrtBin sq, ?_, sqrt_fin hsq sq0.le, r0, ?_⟩
  · unfold Vec.l2Norm
    rw [hs]
    rfl
  · have hc3 : |((sqrtBin sq : ℚ) : ℝ) - Real.sqrt sq| ≤ ulp * Real.sqrt sq := by
      rw [abs_sub_comm]
      exact c3
    have tri : |((sqrtBin sq : ℚ) : ℝ) - Real.sqrt N| ≤ |((sqrtBin sq : ℚ) : ℝ) - Real.sqrt sq| + |Real.sqrt sq - Real.sqrt N| := abs_sub_le _ _ _
    have r0 : 0 < Real.sqrt N := Real.sqrt_pos.mpr hN
    refine tri.trans ?_
    have b1 : ulp * Real.sqrt sq ≤ ulp * (1.001 * Real.sqrt N) := mul_le_mul_of_nonneg_left c2 hu.le
    have b2 : 1.002 * ((x.length + 1) * ulp) / 1.999 * Real.sqrt N ≤ 0.502 * ((x.length + 1) * ulp) * Real.sqrt N := by
      apply mul_le_mul_of_nonneg_right _ r0.le
      have : (0 : ℝ) ≤ (x.length + 1) * ulp := by positivity
      rw [div_le_iff₀ (by norm_num)]
      nlinarith
    have e : (0.502 * ((x.length : ℝ) + 1) + 1.001) * ulp * Real.sqrt N = 0.502 * ((x.length + 1) * ulp) * Real.sqrt N + ulp * (1.001 * Real.sqrt N) := by ring
    rw [e]
    linarith

/-- **C135.**  In range, `L2Norm` is the norm up to a relative error of (n + 2) 2⁻⁵³. -/
theorem C135_norm (x : List Dbl) (h : InRange x) : ∃ v r, Vec.l2Norm sqrt x = .ok v ∧ v.ext = .fin r ∧
    |(r : ℝ) - norm x| ≤ (x.length + 2) * (1 / 2) ^ 53 * norm x := by
  obtain ⟨v, r, h1, h2, -, h3⟩ := norm_core h
  refine ⟨v, r, h1, h2, h3.trans ?_⟩
  apply mul_le_mul_of_nonneg_right _ (norm_pos h).le
  apply mul_le_mul_of_nonneg_right _ ulp_pos.le
  have : (0 : ℝ) ≤ x.length := Nat.cast_nonneg _
  linarith

/-! ## Normalized vectors -/

theorem abs_le_norm {x : List Dbl} {a : Dbl} (h : a ∈ x) : |(a.toRat : ℝ)| ≤ norm x := by
  apply Real.le_sqrt_of_sq_le
  rw [sq_abs, sq]
  exact sq_le_sum h

theorem sum_sq_div (x : List Dbl) (c : ℝ) : (x.map (fun a => ((a.toRat : ℝ) / c) * (a.toRat / c))).sum = (x.map (fun a => (a.toRat : ℝ) * a.toRat)).sum / (c * c) := by
  induction x with
  | nil => simp
  | cons a x ih =>
    rw [List.map_cons, List.sum_cons, ih, List.map_cons, List.sum_cons, add_div, div_mul_div_comm]

theorem small_half : (2 ^ (-1074 : Int) / 2 : ℝ) = 1 / 2 ^ 1075 := by
  rw [zpow_neg, show ((1074 : Int)) = ((1074 : Nat) : Int) from rfl, zpow_natCast]
  norm_num

/-- One element of the normalized vector. -/
theorem div_core {a v : Dbl} {q r : ℚ} {ν ρ : ℝ} (ha : a.ext = .fin q) (hv : v.ext = .fin r) (hr : 0 < r) (hν : 0 < ν) (hq : |(q : ℝ)| ≤ ν) (h0 : 0 ≤ ρ)
    (h1 : ρ ≤ 1 / 4000) (h : |(r : ℝ) - ν| ≤ ρ * ν) :
    ∃ z, (a / v).ext = .fin z ∧ |(z : ℝ) - q / ν| ≤ 1.001 * (ulp + ρ) * (|(q : ℝ)| / ν) + 1 / 2 ^ 1075 := by
  have hr' : (0 : ℝ) < r := by exact_mod_cast hr
  have hab := abs_le.mp h
  have r1 : ν ≤ 1.001 * r := by nlinarith
  have e : (a / v).ext = (fit (.fin (q / r))).ext := by
    show (fit (a.ext / v.ext)).ext = _
    rw [ha, hv]
    show (fit (Ext.div (.fin q) (.fin r))).ext = _
    simp only [Ext.div, hr.ne', if_false]
  have h2 : |q / r| ≤ 2 := by
    rw [abs_div, abs_of_pos hr, div_le_iff₀ hr]
    have : |(q : ℝ)| ≤ 2 * r := by nlinarith
    have h3 : ((|q| : ℚ) : ℝ) ≤ ((2 * r : ℚ) : ℝ) := by
      push_cast
      exact this
    exact (Rat.cast_le (K := ℝ)).mp h3
  have hl : (2 : ℚ) ≤ largest := by decide +kernel
  refine ⟨rnd (q / r), by rw [e, fit_le (h2.trans hl)], ?_⟩
  have e1 : |((rnd (q / r) : ℚ) : ℝ) - q / r| ≤ ulp * (|(q : ℝ)| / r) + 1 / 2 ^ 1075 := by
    have := (Rat.cast_le (K := ℝ)).mpr (rnd_err (q / r))
    push_cast at this
    rw [small_half, abs_div, abs_of_pos hr'] at this
    exact this
  have e2 : |(q : ℝ) / r - q / ν| ≤ 1.001 * ρ * (|(q : ℝ)| / ν) := by
    have : (q : ℝ) / r - q / ν = (q / ν) * ((ν - r) / r) := by field_simp
    rw [this, abs_mul, abs_div (q : ℝ), abs_of_pos hν, abs_div, abs_of_pos hr', mul_comm]
    apply mul_le_mul_of_nonneg_right _ (by positivity)
    rw [div_le_iff₀ hr', abs_sub_comm]
    refine h.trans ?_
    nlinarith
  have e3 : |(q : ℝ)| / r ≤ 1.001 * (|(q : ℝ)| / ν) := by
    rw [div_le_iff₀ hr', ← mul_div_assoc, div_mul_eq_mul_div, le_div_iff₀ hν]
    nlinarith [abs_nonneg (q : ℝ)]
  have := ulp_pos
  have e4 : ulp * (|(q : ℝ)| / r) ≤ ulp * (1.001 * (|(q : ℝ)| / ν)) := mul_le_mul_of_nonneg_left e3 this.le
  generalize (1 / 2 ^ 1075 : ℝ) = η at *
  calc |((rnd (q / r) : ℚ) : ℝ) - q / ν| ≤ |((rnd (q / r) : ℚ) : ℝ) - q / r| + |(q : ℝ) / r - q / ν| := abs_sub_le _ _ _
    _ ≤ _ := by linarith

/-- The sum of the squares of almost the same numbers. -/
theorem sum_close (c η : ℝ) (hc : 0 ≤ c) (hc1 : c ≤ 1 / 2000) (hη : 0 ≤ η) (hη1 : η ≤ 1 / 10) (l : List (ℝ × ℝ)) (h : ∀ p ∈ l, |p.1| ≤ 1 ∧ |p.2 - p.1| ≤ c * |p.1| + η) :
    |(l.map (fun p => p.2 * p.2)).sum - (l.map (fun p => p.1 * p.1)).sum| ≤ 2.001 * c * (l.map (fun p => p.1 * p.1)).sum + l.length * (3 * η) := by
  induction l with
  | nil => simp
  | cons p l ih =>
    have hl := ih (fun q hq => h q (by simp [hq]))
    obtain ⟨h1, h2⟩ := h p (by simp)
    have hp : |p.2 * p.2 - p.1 * p.1| ≤ 2.001 * c * (p.1 * p.1) + 3 * η := by
      have e : p.2 * p.2 - p.1 * p.1 = (p.2 - p.1) * (p.2 - p.1 + 2 * p.1) := by ring
      have tr : |p.2 - p.1 + 2 * p.1| ≤ |p.2 - p.1| + 2 * |p.1| := by
        refine (abs_add_le _ _).trans ?_
        rw [abs_mul, abs_two]
      have s : p.1 * p.1 = |p.1| * |p.1| := (abs_mul_abs_self _).symm
      rw [e, abs_mul, s]
      have tn : 0 ≤ |p.1| := abs_nonneg _
      have t0 : 0 ≤ |p.2 - p.1| := abs_nonneg _
      generalize |p.2 - p.1 + 2 * p.1| = f at *
      generalize |p.2 - p.1| = d at *
      generalize |p.1| = t at *
      have f0 : d * f ≤ (c * t + η) * (c * t + η + 2 * t) := by
        calc d * f ≤ d * (d + 2 * t) := mul_le_mul_of_nonneg_left tr t0
          _ ≤ (c * t + η) * (c * t + η + 2 * t) := mul_le_mul h2 (by linarith) (by linarith) (by positivity)
      refine f0.trans ?_
      have a1 : c * t * (c * t) ≤ 0.001 * c * (t * t) := by
        have : c * c * (t * t) ≤ 0.001 * c * (t * t) := mul_le_mul_of_nonneg_right (by nlinarith) (by positivity)
        nlinarith
      have a2 : c * t * η ≤ 1 / 2000 * η := mul_le_mul_of_nonneg_right (by nlinarith) hη
      have a3 : η * t ≤ η := by nlinarith
      have a4 : η * η ≤ 1 / 10 * η := mul_le_mul_of_nonneg_right hη1 hη
      nlinarith
    rw [List.map_cons, List.sum_cons, List.map_cons, List.sum_cons, List.length_cons]
    push_cast
    calc |p.2 * p.2 + (l.map (fun p => p.2 * p.2)).sum - (p.1 * p.1 + (l.map (fun p => p.1 * p.1)).sum)|
        = |(p.2 * p.2 - p.1 * p.1) + ((l.map (fun p => p.2 * p.2)).sum - (l.map (fun p => p.1 * p.1)).sum)| := by congr 1; ring
      _ ≤ |p.2 * p.2 - p.1 * p.1| + |(l.map (fun p => p.2 * p.2)).sum - (l.map (fun p => p.1 * p.1)).sum| := abs_add_le _ _
      _ ≤ _ := by nlinarith

theorem sum_sq_le (B : ℝ) (y : List Dbl) (h : ∀ a ∈ y, |(a.toRat : ℝ)| ≤ B) : (y.map (fun a => (a.toRat : ℝ) * a.toRat)).sum ≤ y.length * (B * B) := by
  induction y with
  | nil => simp
  | cons a y ih =>
    have h1 := ih (fun b hb => h b (by simp [hb]))
    have h2 := h a (by simp)
    have h3 : (a.toRat : ℝ) * a.toRat ≤ B * B := by
      rw [← abs_mul_abs_self]
      exact mul_le_mul h2 h2 (abs_nonneg _) ((abs_nonneg _).trans h2)
    rw [List.map_cons, List.sum_cons, List.length_cons]
    push_cast
    linarith

/-- **C135.**  In range, `Normalize` divides by the norm up to rounding: each element has a relative error of (n + 3) 2⁻⁵³ (and 2⁻¹⁰⁷⁵ for underflow), the sum
of the squares is 1 up to (n + 3) 2⁻⁵², and so is the norm that `L2Norm` computes afterwards. -/
theorem C135_normalize (x : List Dbl) (h : InRange x) : ∃ y, Flt.normalize sqrt x = .ok y ∧ y.length = x.length ∧
    (∀ (i : Nat) (a b : Dbl), x[i]? = some a → y[i]? = some b → IsFin b ∧
      |(b.toRat : ℝ) - a.toRat / norm x| ≤ (x.length + 3) * (1 / 2) ^ 53 * (|(a.toRat : ℝ)| / norm x) + 1 / 2 ^ 1075) ∧
    |(y.map (fun b => (b.toRat : ℝ) * b.toRat)).sum - 1| ≤ (x.length + 3) * (1 / 2) ^ 52 ∧
    ∃ w s, Vec.l2Norm sqrt y = .ok w ∧ w.ext = .fin s ∧ |(s : ℝ) - 1| ≤ (x.length + 3) * (1 / 2) ^ 52 := by
  obtain ⟨v, r, hv, hvr, r0, hr⟩ := norm_core h
  have hν := norm_pos h
  have hsz := size_ulp h.size
  have hu := ulp_pos
  have hn : (0 : ℝ) ≤ x.length := Nat.cast_nonneg _
  have u52 : (1 / 2 : ℝ) ^ 52 = 2 * ulp := by
    unfold ulp
    norm_num
  have uu : ulp ≤ 1 / 1000000 := by
    unfold ulp
    norm_num
  set n : ℝ := (x.length : ℝ) with hndef
  have hnu : 0 ≤ n * ulp := by positivity
  set ρ : ℝ := (0.502 * (n + 1) + 1.001) * ulp with hρ
  have ρ0 : 0 ≤ ρ := by positivity
  have ρ1 : ρ ≤ 1 / 4000 := by rw [hρ]; nlinarith
  have hne : Floats.eq v 0 = false := by
    by_contra hc
    rw [Bool.not_eq_false] at hc
    have : IsZero v := hc
    rw [isZero_iff, hvr] at this
    exact r0.ne' (Ext.fin.inj this)
  have hel : ∀ a ∈ x, ∃ z, (a / v).ext = .fin z ∧ |(z : ℝ) - a.toRat / norm x| ≤ 1.001 * (ulp + ρ) * (|(a.toRat : ℝ)| / norm x) + 1 / 2 ^ 1075 := by
    intro a ha
    obtain ⟨q, hq⟩ := (isFin_iff a).mp (h.fin a ha)
    have e : a.toRat = q := by unfold toRat; rw [hq]
    have := abs_le_norm ha
    rw [e] at *
    exact div_core hq hvr r0 hν this ρ0 ρ1 hr
  have hel2 : ∀ a ∈ x, IsFin (a / v) ∧ |((a / v).toRat : ℝ) - a.toRat / norm x| ≤ 1.001 * (ulp + ρ) * (|(a.toRat : ℝ)| / norm x) + 1 / 2 ^ 1075 := by
    intro a ha
    obtain ⟨z, h1, h2⟩ := hel a ha
    have e : (a / v).toRat = z := by
      unfold toRat
      rw [h1]
    rw [e]
    exact ⟨(isFin_iff _).mpr ⟨z, h1⟩, h2⟩
  have hη : ((x.length : ℝ)) * (3 * (1 / 2 ^ 1075)) ≤ 0.003 * ulp := by
    have : (x.length : ℝ) ≤ 2 ^ 40 := by exact_mod_cast h.size
    calc ((x.length : ℝ)) * (3 * (1 / 2 ^ 1075)) ≤ 2 ^ 40 * (3 * (1 / 2 ^ 1075)) := mul_le_mul_of_nonneg_right this (by positivity)
      _ ≤ 0.003 * ulp := by unfold ulp; norm_num
  have hη0 : (0 : ℝ) ≤ 1 / 2 ^ 1075 := by positivity
  have hη1 : (1 / 2 ^ 1075 : ℝ) ≤ 1 / 10 := by norm_num
  have hsq : |((x.map (fun a => a / v)).map (fun b => (b.toRat : ℝ) * b.toRat)).sum - 1| ≤ (1.007 * (n + 1) + 4.014) * ulp := by
    have := sum_close (1.001 * (ulp + ρ)) (1 / 2 ^ 1075) (by positivity) (by rw [hρ]; nlinarith) hη0 hη1
      (x.map (fun a => ((a.toRat : ℝ) / norm x, ((a / v).toRat : ℝ)))) (by
        intro p hp
        obtain ⟨a, ha, rfl⟩ := List.mem_map.mp hp
        refine ⟨?_, ?_⟩
        · show |(a.toRat : ℝ) / norm x| ≤ 1
          rw [abs_div, abs_of_pos hν, div_le_one hν]
          exact abs_le_norm ha
        · show |((a / v).toRat : ℝ) - a.toRat / norm x| ≤ _ * |(a.toRat : ℝ) / norm x| + _
          rw [abs_div (a.toRat : ℝ), abs_of_pos hν]
          exact (hel2 a ha).2)
    rw [List.map_map, List.map_map, List.length_map] at this
    have e1 : (x.map ((fun p : ℝ × ℝ => p.1 * p.1) ∘ fun a => ((a.toRat : ℝ) / norm x, ((a / v).toRat : ℝ)))).sum = 1 := by
      show (x.map (fun a => ((a.toRat : ℝ) / norm x) * (a.toRat / norm x))).sum = 1
      rw [sum_sq_div, div_eq_one_iff_eq (by positivity)]
      exact (Real.mul_self_sqrt (sq_sum_nonneg x)).symm
    rw [e1] at this
    rw [List.map_map]
    refine this.trans ?_
    rw [hρ]
    generalize (1 / 2 ^ 1075 : ℝ) = η at *
    nlinarith
  have hy : InRange (x.map (fun a => a / v)) := by
    refine ⟨by rw [List.length_map]; exact h.size, ?_, ?_, ?_⟩
    · intro b hb
      obtain ⟨a, ha, rfl⟩ := List.mem_map.mp hb
      exact (hel2 a ha).1
    · intro b hb
      obtain ⟨a, ha, rfl⟩ := List.mem_map.mp hb
      have h1 := (hel2 a ha).2
      have h2 : |(a.toRat : ℝ)| / norm x ≤ 1 := by
        rw [div_le_one hν]
        exact abs_le_norm ha
      have h3 : |((a / v).toRat : ℝ)| ≤ 2 := by
        have t : |((a / v).toRat : ℝ)| ≤ |((a / v).toRat : ℝ) - a.toRat / norm x| + |(a.toRat : ℝ)| / norm x := by
          have := abs_add_le (((a / v).toRat : ℝ) - a.toRat / norm x) (a.toRat / norm x)
          rw [sub_add_cancel, abs_div (a.toRat : ℝ), abs_of_pos hν] at this
          exact this
        have : 0 ≤ |(a.toRat : ℝ)| / norm x := by positivity
        generalize (1 / 2 ^ 1075 : ℝ) = η at *
        nlinarith
      have h4 : ((|(a / v).toRat| : ℚ) : ℝ) ≤ ((2 : ℚ) : ℝ) := by
        push_cast
        exact h3
      exact ((Rat.cast_le (K := ℝ)).mp h4).trans (by norm_num)
    · by_contra hc
      push Not at hc
      have : ∀ b ∈ x.map (fun a => a / v), |(b.toRat : ℝ)| ≤ 1 / 2 ^ 480 := by
        intro b hb
        have := (Rat.cast_le (K := ℝ)).mpr (hc b hb).le
        push_cast at this
        exact this
      have := sum_sq_le _ _ this
      rw [List.length_map] at this
      have h4 : (x.length : ℝ) ≤ 2 ^ 40 := by exact_mod_cast h.size
      have h5 : (x.length : ℝ) * (1 / 2 ^ 480 * (1 / 2 ^ 480)) ≤ 1 / 10 := by
        calc (x.length : ℝ) * (1 / 2 ^ 480 * (1 / 2 ^ 480)) ≤ 2 ^ 40 * (1 / 2 ^ 480 * (1 / 2 ^ 480)) := mul_le_mul_of_nonneg_right h4 (by positivity)
          _ ≤ 1 / 10 := by norm_num
      have h6 := (abs_le.mp hsq).1
      generalize (1 / 2 ^ 480 : ℝ) = η at *
      nlinarith
  obtain ⟨w, s, hw, hws, -, hs⟩ := norm_core hy
  rw [List.length_map] at hs
  refine ⟨x.map (fun a => a / v), ?_, by rw [List.length_map], ?_, hsq.trans (by rw [u52]; nlinarith), w, s, hw, hws, ?_⟩
  · unfold Flt.normalize Flt.divVec
    rw [hv]
    simp only [ok_bind, hne, cassert_true]
  · intro i a b hia hib
    rw [List.getElem?_map, hia] at hib
    obtain rfl : a / v = b := by simpa using hib
    have ha : a ∈ x := List.mem_of_getElem? hia
    refine ⟨(hel2 a ha).1, (hel2 a ha).2.trans ?_⟩
    apply add_le_add_left
    apply mul_le_mul_of_nonneg_right _ (by positivity)
    show _ ≤ (n + 3) * ulp
    rw [hρ]
    nlinarith
  · have hone : |((x.map (fun a => a / v)).map (fun b => (b.toRat : ℝ) * b.toRat)).sum - 1| ≤ ((1.007 * (n + 1) + 4.014) * ulp) * 1 := by
      rw [mul_one]
      exact hsq
    obtain ⟨-, c1, c2⟩ := sqrt_close one_pos (by nlinarith) hone
    rw [Real.sqrt_one, mul_one] at c1 c2
    change |norm (x.map (fun a => a / v)) - 1| ≤ _ at c1
    change norm (x.map (fun a => a / v)) ≤ _ at c2
    have c3 : ρ * norm (x.map (fun a => a / v)) ≤ ρ * 1.001 := mul_le_mul_of_nonneg_left c2 ρ0
    have c4 : (1.007 * (n + 1) + 4.014) * ulp / 1.999 ≤ (0.504 * (n + 1) + 2.01) * ulp := by
      rw [div_le_iff₀ (by norm_num)]
      nlinarith
    calc |(s : ℝ) - 1| ≤ |(s : ℝ) - norm (x.map (fun a => a / v))| + |norm (x.map (fun a => a / v)) - 1| := abs_sub_le _ _ _
      _ ≤ ρ * 1.001 + (0.504 * (n + 1) + 2.01) * ulp := add_le_add (hs.trans c3) (c1.trans c4)
      _ ≤ (n + 3) * (1 / 2) ^ 52 := by
        rw [hρ, u52]
        nlinarith

/-- **C135.**  `Normalize(v); assert(std::fabs(L2Norm(v) - 1.0) < 1e-10)` (tests/test_linalg.cpp:777-778) holds in range, for up to 400000 elements. -/
theorem C135_assert (x : List Dbl) (h : InRange x) (hn : x.length ≤ 400000) : ∃ y w, Flt.normalize sqrt x = .ok y ∧ Vec.l2Norm sqrt y = .ok w ∧
    Floats.lt (Floats.abs (w - 1)) (of (1 / 10 ^ 10)) = true := by
  obtain ⟨y, hy, -, -, -, w, s, hw, hws, hs⟩ := C135_normalize x h
  refine ⟨y, w, hy, hw, ?_⟩
  have hn' : (x.length : ℝ) ≤ 400000 := by exact_mod_cast hn
  have h1 : |(s : ℝ) - 1| ≤ 1 / 11000000000 := by
    refine hs.trans ?_
    have : ((x.length : ℝ) + 3) * (1 / 2) ^ 52 ≤ (400000 + 3) * (1 / 2) ^ 52 := mul_le_mul_of_nonneg_right (by linarith) (by positivity)
    exact this.trans (by norm_num)
  have h2 : |s - 1| ≤ 1 / 11000000000 := by
    have : ((|s - 1| : ℚ) : ℝ) ≤ ((1 / 11000000000 : ℚ) : ℝ) := by
      push_cast
      exact h1
    exact (Rat.cast_le (K := ℝ)).mp this
  have hl : (1 / 11000000000 : ℚ) ≤ largest := by decide +kernel
  have e : (w - 1).ext = .fin (rnd (s - 1)) := by
    show (fit (w.ext - Dbl.ext 1)).ext = _
    rw [hws]
    have : (Ext.fin s - Dbl.ext 1 : Ext ℚ) = .fin (s - 1) := by
      show Ext.fin (s + -1) = _
      rw [sub_eq_add_neg]
    rw [this]
    exact fit_le (h2.trans hl)
  have e2 : (Floats.abs (w - 1)).ext = .fin |rnd (s - 1)| := by
    show Floats.abs (w - 1).ext = _
    rw [e]
    rfl
  have h3 : |rnd (s - 1)| ≤ 1 / 10900000000 := by
    have a1 := rnd_err (s - 1)
    have a2 : |rnd (s - 1)| ≤ |rnd (s - 1) - (s - 1)| + |s - 1| := by
      have := abs_add_le (rnd (s - 1) - (s - 1)) (s - 1)
      rwa [sub_add_cancel] at this
    have a3 : (2 : ℚ) ^ (-1074 : Int) / 2 ≤ 1 / 10 ^ 30 := by decide +kernel
    have a4 : (1 / 2 : ℚ) ^ 53 * |s - 1| ≤ (1 / 2) ^ 53 * (1 / 11000000000) := mul_le_mul_of_nonneg_left h2 (by positivity)
    have a5 : (1 / 2 : ℚ) ^ 53 * (1 / 11000000000) + 1 / 10 ^ 30 + 1 / 11000000000 ≤ 1 / 10900000000 := by norm_num
    linarith
  have e3 : (of (1 / 10 ^ 10)).ext = .fin (rnd (1 / 10 ^ 10)) := fit_le (by decide +kernel)
  have h4 : (1 / 10900000000 : ℚ) < rnd (1 / 10 ^ 10) := by decide +kernel
  show Floats.lt (Floats.abs (w - 1)).ext (of (1 / 10 ^ 10)).ext = true
  rw [e2, e3]
  have : |rnd (s - 1)| < rnd (1 / 10 ^ 10) := lt_of_le_of_lt h3 h4
  simpa [Floats.lt, Ext.lt] using this

/-! ## Examples -/

theorem inRange_example : InRange [of 3, of 4, of (1 / 10)] := by
  refine ⟨by decide, ?_, by decide +kernel, by decide +kernel⟩
  intro a ha
  unfold IsFin IsZero
  revert a
  decide +kernel

example : ∃ y w, Flt.normalize sqrt [of 3, of 4, of (1 / 10)] = .ok y ∧ Vec.l2Norm sqrt y = .ok w ∧ Floats.lt (Floats.abs (w - 1)) (of (1 / 10 ^ 10)) = true :=
  C135_assert _ inRange_example (by decide)

/-- `L2Norm({3, 4})` is 5, and `L2Norm({1, 1})` is the `double` nearest to the square root of 2. -/
example : Vec.l2Norm sqrt [of 3, of 4] = .ok (of 5) ∧ Vec.l2Norm sqrt [of 1, of 1] = .ok (of (6369051672525773 / 4503599627370496)) := by decide +kernel

theorem inRange_ones : InRange [of 1, of 1] := by
  refine ⟨by decide, ?_, by decide +kernel, by decide +kernel⟩
  intro a ha
  unfold IsFin IsZero
  revert a
  decide +kernel

/-- **C135.**  The norm of the normalized vector is not exactly 1 in general, and normalizing it again changes it. -/
theorem C135_normalize_wrong : ∃ (x y z : List Dbl) (w : Dbl), InRange x ∧ Flt.normalize sqrt x = .ok y ∧ Vec.l2Norm sqrt y = .ok w ∧ Floats.eq w 1 = false ∧
    Flt.normalize sqrt y = .ok z ∧ z ≠ y :=
  ⟨[of 1, of 1], [of (6369051672525772 / 9007199254740992), of (6369051672525772 / 9007199254740992)],
    [of (6369051672525773 / 9007199254740992), of (6369051672525773 / 9007199254740992)], of (1 - 1 / 2 ^ 53),
    inRange_ones, by decide +kernel, by decide +kernel, by decide +kernel, by decide +kernel, by decide +kernel⟩

end Dbl
end Linalg
