import Mathlib.Analysis.Real.Sqrt
import Mathlib.Data.Nat.Sqrt
import Verif.Spec.Ieee

/-!
# The square root of IEEE 754

`Dbl.sqrt`: the `double` nearest to the square root.  It can be run.
-/

namespace Linalg
open Floats Io Print

namespace Dbl

/-- The number with 53 digits nearest to the square root of a positive number. -/
def sqrtBin (q : ℚ) : ℚ :=
  if q ≤ 0 then 0
  else
    let s := Int.log 2 q / 2 - 52
    let t := q / 4 ^ s
    let k := Nat.sqrt ⌊t⌋.toNat
    (if (k : ℚ) * k + k + 1 / 4 < t then k + 1 else k) * 2 ^ s

/-- `std::sqrt`. -/
def sqrt (a : Dbl) : Dbl :=
  match a.ext with
  | .fin q => if q < 0 then ⟨.nan, fun d e => by cases e⟩ else of (sqrtBin q)
  | .inf s => if s then ⟨.nan, fun d e => by cases e⟩ else ⟨.inf false, fun d e => by cases e⟩
  | .nan => ⟨.nan, fun d e => by cases e⟩

/-- What `sqrtBin` computes: a whole number `k` of units `2 ^ s`. -/
theorem sqrtBin_spec {q : ℚ} (hq : 0 < q) : ∃ (s : Int) (k : Nat), sqrtBin q = k * 2 ^ s ∧ s = Int.log 2 q / 2 - 52 ∧
    (2 : ℝ) ^ (52 : Int) * 2 ^ s ≤ Real.sqrt q ∧ Real.sqrt q < 2 ^ (53 : Int) * 2 ^ s ∧
    ∀ m : Int, |Real.sqrt q - k * 2 ^ s| ≤ |Real.sqrt q - m * 2 ^ s| := by
  set s : Int := Int.log 2 q / 2 - 52 with hs
  have p4 : (0 : ℚ) < 4 ^ s := zpow_pos (by norm_num) _
  have p2 : (0 : ℝ) < 2 ^ s := zpow_pos (by norm_num) _
  set t : ℚ := q / 4 ^ s with ht
  have t0 : 0 < t := div_pos hq p4
  have e4 : ((4 : ℝ) ^ s) = (2 ^ s) * (2 ^ s) := by rw [← mul_zpow]; norm_num
  have hqt : (q : ℝ) = t * (2 ^ s * 2 ^ s) := by
    rw [ht, ← e4]
    push_cast
    rw [div_mul_cancel₀ _ (zpow_ne_zero _ (by norm_num))]
  have hroot : Real.sqrt q = Real.sqrt t * 2 ^ s := by
    rw [hqt, Real.sqrt_mul (by exact_mod_cast t0.le), Real.sqrt_mul_self p2.le]
  have h1 : (2 : ℚ) ^ Int.log 2 q ≤ q := by simpa using Int.zpow_log_le_self (b := 2) (by norm_num) hq
  have h2 : q < (2 : ℚ) ^ (Int.log 2 q + 1) := by simpa using Int.lt_zpow_succ_log_self (b := 2) (by norm_num) q
  have b1 : (2 : ℝ) ^ (52 : Int) * 2 ^ s ≤ Real.sqrt q := by
    apply Real.le_sqrt_of_sq_le
    have e : ((2 : ℝ) ^ (52 : Int) * 2 ^ s) ^ 2 = 2 ^ (2 * (52 + s)) := by
      rw [← zpow_add₀ (by norm_num), pow_two, ← zpow_add₀ (by norm_num)]
      congr 1
      ring
    rw [e]
    calc (2 : ℝ) ^ (2 * (52 + s)) ≤ 2 ^ Int.log 2 q := zpow_le_zpow_right₀ (by norm_num) (by omega)
      _ ≤ q := by have := (Rat.cast_le (K := ℝ)).mpr h1; push_cast at this; exact this
  have b2 : Real.sqrt q < 2 ^ (53 : Int) * 2 ^ s := by
    rw [Real.sqrt_lt' (by positivity)]
    have e : ((2 : ℝ) ^ (53 : Int) * 2 ^ s) ^ 2 = 2 ^ (2 * (53 + s)) := by
      rw [← zpow_add₀ (by norm_num), pow_two, ← zpow_add₀ (by norm_num)]
      congr 1
      ring
    rw [e]
    calc (q : ℝ) < 2 ^ (Int.log 2 q + 1) := by have := (Rat.cast_lt (K := ℝ)).mpr h2; push_cast at this; exact this
      _ ≤ 2 ^ (2 * (53 + s)) := zpow_le_zpow_right₀ (by norm_num) (by omega)
  set k : Nat := Nat.sqrt ⌊t⌋.toNat with hk
  have hfl : ((⌊t⌋.toNat : Nat) : ℝ) ≤ t ∧ (t : ℝ) < (⌊t⌋.toNat : Nat) + 1 := by
    have f0 : 0 ≤ ⌊t⌋ := Int.floor_nonneg.mpr t0.le
    have f1 : ((⌊t⌋.toNat : Nat) : ℚ) = (⌊t⌋ : ℚ) := by
      have : ((⌊t⌋.toNat : Nat) : Int) = ⌊t⌋ := Int.toNat_of_nonneg f0
      exact_mod_cast this
    constructor
    · have : ((⌊t⌋.toNat : Nat) : ℚ) ≤ t := by rw [f1]; exact Int.floor_le t
      exact_mod_cast this
    · have : t < ((⌊t⌋.toNat : Nat) : ℚ) + 1 := by rw [f1]; exact Int.lt_floor_add_one t
      exact_mod_cast this
  have k1 : (k : ℝ) ≤ Real.sqrt t := by
    apply Real.le_sqrt_of_sq_le
    have : k * k ≤ ⌊t⌋.toNat := Nat.sqrt_le _
    have : ((k * k : Nat) : ℝ) ≤ (⌊t⌋.toNat : Nat) := by exact_mod_cast this
    rw [pow_two]
    push_cast at this
    linarith [hfl.1]
  have k2 : Real.sqrt t < (k : ℝ) + 1 := by
    rw [Real.sqrt_lt' (by positivity)]
    have : ⌊t⌋.toNat + 1 ≤ (k + 1) * (k + 1) := Nat.lt_succ_sqrt _
    have : ((⌊t⌋.toNat + 1 : Nat) : ℝ) ≤ (((k + 1) * (k + 1) : Nat) : ℝ) := by exact_mod_cast this
    push_cast at this
    rw [pow_two]
    linarith [hfl.2]
  have scale : ∀ (R : Nat), (∀ m : Int, |Real.sqrt t - R| ≤ |Real.sqrt t - m|) →
      ∀ m : Int, |Real.sqrt q - R * 2 ^ s| ≤ |Real.sqrt q - m * 2 ^ s| := by
    intro R h m
    rw [hroot, ← sub_mul, ← sub_mul, abs_mul, abs_mul]
    exact mul_le_mul_of_nonneg_right (h m) (abs_nonneg _)
  have hdef : sqrtBin q = ((if (k : ℚ) * k + k + 1 / 4 < t then k + 1 else k : Nat) : ℚ) * 2 ^ s := by
    unfold sqrtBin
    rw [if_neg (not_le.mpr hq)]
  by_cases hc : (k : ℚ) * k + k + 1 / 4 < t
  · refine ⟨s, k + 1, ?_, hs, b1, b2, scale (k + 1) ?_⟩
    · rw [hdef, if_pos hc]
    · have hr : (k : ℝ) + 1 / 2 < Real.sqrt t := by
        apply Real.lt_sqrt_of_sq_lt
        have := (Rat.cast_lt (K := ℝ)).mpr hc
        push_cast at this
        nlinarith
      intro m
      rw [abs_of_nonpos (by push_cast; linarith)]
      push_cast
      rcases le_or_gt m (k : Int) with h | h
      · have : (m : ℝ) ≤ k := by exact_mod_cast h
        rw [abs_of_nonneg (by linarith)]
        linarith
      · have : (k : ℝ) + 1 ≤ m := by exact_mod_cast h
        rw [abs_of_nonpos (by linarith)]
        linarith
  · refine ⟨s, k, ?_, hs, b1, b2, scale k ?_⟩
    · rw [hdef, if_neg hc]
    · have hr : Real.sqrt t ≤ (k : ℝ) + 1 / 2 := by
        rw [Real.sqrt_le_left (by positivity)]
        have := (Rat.cast_le (K := ℝ)).mpr (not_lt.mp hc)
        push_cast at this
        nlinarith
      intro m
      rw [abs_of_nonneg (by linarith)]
      rcases le_or_gt m (k : Int) with h | h
      · have : (m : ℝ) ≤ k := by exact_mod_cast h
        rw [abs_of_nonneg (by linarith)]
        linarith
      · have : (k : ℝ) + 1 ≤ m := by exact_mod_cast h
        rw [abs_of_nonpos (by linarith)]
        linarith

theorem log_range {q : ℚ} (hq : 0 < q) (h : IsDouble q) : -1074 ≤ Int.log 2 q ∧ Int.log 2 q < 1024 := by
  obtain ⟨m, e, h1, h2, h3, h4⟩ := h
  have m0 : 0 < m := by
    have : (0 : ℚ) < m := by
      rw [h1] at hq
      exact pos_of_mul_pos_left hq (zpow_nonneg (by norm_num) _)
    exact_mod_cast this
  have l1 : (2 : ℚ) ^ Int.log 2 q ≤ q := by simpa using Int.zpow_log_le_self (b := 2) (by norm_num) hq
  have l2 : q < (2 : ℚ) ^ (Int.log 2 q + 1) := by simpa using Int.lt_zpow_succ_log_self (b := 2) (by norm_num) q
  have pe : (0 : ℚ) < 2 ^ e := zpow_pos (by norm_num) _
  constructor
  · have : (2 : ℚ) ^ e ≤ q := by
      rw [h1]
      have : (1 : ℚ) ≤ m := by exact_mod_cast m0
      nlinarith
    have := (zpow_lt_zpow_iff_right₀ (by norm_num : (1 : ℚ) < 2)).mp (lt_of_le_of_lt this l2)
    omega
  · have : q < (2 : ℚ) ^ (53 + e) := by
      rw [h1, zpow_add₀ (by norm_num)]
      have : (m : ℚ) < 2 ^ (53 : Int) := by
        rw [abs_of_pos m0] at h2
        exact_mod_cast h2
      exact mul_lt_mul_of_pos_right this pe
    have := (zpow_lt_zpow_iff_right₀ (by norm_num : (1 : ℚ) < 2)).mp (lt_of_le_of_lt l1 this)
    omega

/-- The value of `sqrt`, and that it is the nearest `double`. -/
theorem sqrtBin_nearest {q : ℚ} (hq : 0 < q) (hd : IsDouble q) : IsDouble (sqrtBin q) ∧ 0 < sqrtBin q ∧
    (∀ d, IsDouble d → |Real.sqrt q - (sqrtBin q : ℚ)| ≤ |Real.sqrt q - (d : ℚ)|) ∧
    |Real.sqrt q - (sqrtBin q : ℚ)| ≤ (1 / 2) ^ 53 * Real.sqrt q := by
  obtain ⟨s, k, e, hs, b1, b2, hn⟩ := sqrtBin_spec hq
  obtain ⟨l1, l2⟩ := log_range hq hd
  have p2 : (0 : ℝ) < 2 ^ s := zpow_pos (by norm_num) _
  have ev : ((sqrtBin q : ℚ) : ℝ) = k * 2 ^ s := by rw [e]; push_cast; rfl
  have n1 := hn (2 ^ 52)
  have n2 := hn (2 ^ 53)
  have c1 : (((2 : Int) ^ 52 : Int) : ℝ) * 2 ^ s = 2 ^ (52 : Int) * 2 ^ s := by push_cast; norm_cast
  have c2 : (((2 : Int) ^ 53 : Int) : ℝ) * 2 ^ s = 2 ^ (53 : Int) * 2 ^ s := by push_cast; norm_cast
  rw [c1, abs_of_nonneg (a := Real.sqrt q - 2 ^ (52 : Int) * 2 ^ s) (by linarith)] at n1
  rw [c2, abs_of_nonpos (a := Real.sqrt q - 2 ^ (53 : Int) * 2 ^ s) (by linarith)] at n2
  have r1 : (2 : ℝ) ^ (52 : Int) * 2 ^ s ≤ k * 2 ^ s := by
    have := le_trans (le_abs_self _) n1
    linarith
  have r2 : (k : ℝ) * 2 ^ s ≤ 2 ^ (53 : Int) * 2 ^ s := by
    have := le_trans (neg_le_abs _) n2
    linarith
  have k1 : 2 ^ 52 ≤ k := by
    have := le_of_mul_le_mul_right r1 p2
    exact_mod_cast this
  have k2 : k ≤ 2 ^ 53 := by
    have := le_of_mul_le_mul_right r2 p2
    exact_mod_cast this
  have hdb : IsDouble (sqrtBin q) := by
    rcases Nat.lt_or_ge k (2 ^ 53) with h | h
    · exact ⟨k, s, by rw [e]; push_cast; rfl, by rw [abs_of_nonneg (by omega)]; exact_mod_cast h, by omega, by omega⟩
    · obtain rfl : k = 2 ^ 53 := le_antisymm k2 h
      refine ⟨2 ^ 52, s + 1, ?_, by norm_num, by omega, by omega⟩
      rw [e, zpow_add₀ (by norm_num)]
      push_cast
      ring
  refine ⟨hdb, ?_, ?_, ?_⟩
  · rw [e]
    have : (0 : ℚ) < k := by exact_mod_cast (lt_of_lt_of_le (by norm_num) k1 : 0 < k)
    exact mul_pos this (zpow_pos (by norm_num) _)
  · rintro d ⟨m, f, h1, h2, -, -⟩
    rw [ev]
    rcases le_or_gt s f with h | h
    · have : ((d : ℚ) : ℝ) = ((m * 2 ^ (f - s).toNat : Int) : ℝ) * 2 ^ s := by
        rw [h1, zpow_split 2 (by norm_num) f s h]
        push_cast
        ring
      rw [this]
      exact hn _
    · refine n1.trans ?_
      have hm : (m : ℝ) < 2 ^ (53 : Int) := by
        have := lt_of_le_of_lt (le_abs_self m) h2
        exact_mod_cast this
      have hd' : ((d : ℚ) : ℝ) ≤ 2 ^ (52 : Int) * 2 ^ s := by
        rw [h1]
        push_cast
        calc (m : ℝ) * 2 ^ f ≤ 2 ^ (53 : Int) * 2 ^ f := mul_le_mul_of_nonneg_right hm.le (zpow_nonneg (by norm_num) _)
          _ = 2 ^ (53 + f) := by rw [zpow_add₀ (by norm_num)]
          _ ≤ 2 ^ (52 + s) := zpow_le_zpow_right₀ (by norm_num) (by omega)
          _ = _ := by rw [zpow_add₀ (by norm_num)]
      rw [abs_of_nonneg (by linarith)]
      linarith
  · rw [ev]
    have half : |Real.sqrt q - k * 2 ^ s| ≤ 2 ^ s / 2 := by
      have hr := hn (round (Real.sqrt q / 2 ^ s))
      refine hr.trans ?_
      have := abs_sub_round (Real.sqrt q / 2 ^ s)
      have e1 : Real.sqrt q - (round (Real.sqrt q / 2 ^ s) : ℝ) * 2 ^ s = (Real.sqrt q / 2 ^ s - round (Real.sqrt q / 2 ^ s)) * 2 ^ s := by
        field_simp
      rw [e1, abs_mul, abs_of_pos p2]
      have := mul_le_mul_of_nonneg_right this p2.le
      linarith
    refine half.trans ?_
    have : (2 : ℝ) ^ s / 2 = (1 / 2) ^ 53 * (2 ^ (52 : Int) * 2 ^ s) := by
      norm_num
      ring
    rw [this]
    exact mul_le_mul_of_nonneg_left b1 (by positivity)

theorem sqrtBin_zero : sqrtBin 0 = 0 := by simp [sqrtBin]

theorem IsDouble.lt {q : ℚ} (h : IsDouble q) : |q| < 2 ^ 1024 := by
  obtain ⟨m, e, h1, h2, -, h4⟩ := h
  rw [h1, abs_mul, abs_of_pos (zpow_pos (by norm_num : (0 : ℚ) < 2) e)]
  have : |(m : ℚ)| < 2 ^ (53 : Int) := by exact_mod_cast h2
  calc |(m : ℚ)| * 2 ^ e < 2 ^ (53 : Int) * 2 ^ e := mul_lt_mul_of_pos_right this (zpow_pos (by norm_num) _)
    _ = 2 ^ (53 + e) := by rw [zpow_add₀ (by norm_num)]
    _ ≤ 2 ^ (1024 : Int) := zpow_le_zpow_right₀ (by norm_num) (by omega)
    _ = 2 ^ 1024 := by rw [← zpow_natCast]; rfl

theorem of_isDouble {q : ℚ} (h : IsDouble q) : (of q).ext = .fin q := by
  unfold of fit
  have := IsDouble.lt h
  simp only [rnd_self h, this, dif_pos]

theorem sqrt_fin {a : Dbl} {q : ℚ} (ha : a.ext = .fin q) (hq : 0 ≤ q) : (sqrt a).ext = .fin (sqrtBin q) := by
  have h : sqrt a = of (sqrtBin q) := by
    unfold sqrt
    rw [ha]
    simp only
    rw [if_neg (not_lt.mpr hq)]
  rw [h]
  apply of_isDouble
  rcases hq.eq_or_lt with rfl | h0
  · rw [sqrtBin_zero]
    exact isDouble_zero
  · exact (sqrtBin_nearest h0 (a.isDouble q ha)).1

end Dbl
end Linalg
