import Verif.Spec.Ieee
import Verif.Spec.Order

/-!
# Whole numbers in double precision

`Dbl.dy k e` is the double nearest to `k * 2 ^ e`.  For `|k| ≤ 2 ^ 53` and an exponent in range it is that number.
-/

namespace Linalg
open Floats Io Print

namespace Dbl

/-- `k * 2 ^ e`, rounded. -/
def dy (e k : Int) : Dbl := of (k * 2 ^ e)

/-- The exponents for which all of `k * 2 ^ e`, `|k| ≤ 2 ^ 53`, are doubles. -/
def Expo (e : Int) : Prop := -1074 ≤ e ∧ e ≤ 970

/-- The whole numbers up to which all are doubles. -/
def cap : Int := 2 ^ 53

theorem isDouble_dy {e k : Int} (he : Expo e) (hk : |k| ≤ cap) : IsDouble (k * 2 ^ e) := by
  unfold cap at hk
  obtain ⟨h1, h2⟩ := he
  rcases lt_or_eq_of_le hk with h | h
  · exact ⟨k, e, rfl, h, h1, by omega⟩
  · have h2 : (2 : ℚ) ^ (e + 1) = 2 * 2 ^ e := by
      rw [zpow_add₀ (by norm_num), zpow_one, mul_comm]
    rcases abs_choice k with hs | hs
    · refine ⟨2 ^ 52, e + 1, ?_, by norm_num, by omega, by omega⟩
      rw [h2, ← hs, h]
      push_cast
      ring
    · refine ⟨-2 ^ 52, e + 1, ?_, by norm_num, by omega, by omega⟩
      have : k = -2 ^ 53 := by omega
      rw [h2, this]
      push_cast
      ring

theorem of_isDouble {q : ℚ} (h : IsDouble q) : (of q).ext = .fin q := by
  have hl : |rnd q| < 2 ^ 1024 := by
    rw [rnd_self h]
    obtain ⟨m, e, rfl, h2, h3, h4⟩ := h
    rw [abs_mul, abs_of_pos (a := (2 : ℚ) ^ e) (zpow_pos (by norm_num) _)]
    have h5 : ((|m| : Int) : ℚ) < 2 ^ 53 := by exact_mod_cast h2
    rw [Int.cast_abs] at h5
    calc |(m : ℚ)| * 2 ^ e ≤ |(m : ℚ)| * 2 ^ (971 : Int) :=
          mul_le_mul_of_nonneg_left (zpow_le_zpow_right₀ (by norm_num) h4) (abs_nonneg _)
      _ < 2 ^ 53 * 2 ^ (971 : Int) := mul_lt_mul_of_pos_right h5 (zpow_pos (by norm_num) _)
      _ = 2 ^ 1024 := by
        rw [show (2 : ℚ) ^ (971 : Int) = 2 ^ (971 : Nat) from zpow_natCast 2 971, ← pow_add]
  unfold of fit
  simp only [dif_pos hl]
  rw [rnd_self h]

/-- It is the number itself. -/
theorem dy_ext {e k : Int} (he : Expo e) (hk : |k| ≤ cap) : (dy e k).ext = .fin (k * 2 ^ e) := of_isDouble (isDouble_dy he hk)

theorem cap_nonneg : 0 ≤ cap := by decide

theorem dy_zero (e : Int) (he : Expo e) : dy e 0 = 0 := by
  apply ext_inj
  rw [dy_ext he (by simp [cap_nonneg])]
  simp only [Int.cast_zero, zero_mul]
  rfl

theorem dy_one : dy 0 1 = 1 := by
  apply ext_inj
  rw [dy_ext ⟨by norm_num, by norm_num⟩ (by decide)]
  simp
  rfl

theorem dy_add {e j k : Int} (he : Expo e) (hj : |j| ≤ cap) (hk : |k| ≤ cap) : dy e j + dy e k = dy e (j + k) := by
  apply ext_inj
  show (fit ((dy e j).ext + (dy e k).ext)).ext = _
  rw [dy_ext he hj, dy_ext he hk]
  show (of _).ext = (of _).ext
  congr 2
  push_cast
  ring

theorem dy_sub {e j k : Int} (he : Expo e) (hj : |j| ≤ cap) (hk : |k| ≤ cap) : dy e j - dy e k = dy e (j - k) := by
  apply ext_inj
  show (fit ((dy e j).ext - (dy e k).ext)).ext = _
  rw [dy_ext he hj, dy_ext he hk]
  show (of (_ + -_)).ext = (of _).ext
  congr 2
  push_cast
  ring

theorem dy_mul {e f j k : Int} (he : Expo e) (hf : Expo f) (hj : |j| ≤ cap) (hk : |k| ≤ cap) : dy e j * dy f k = dy (e + f) (j * k) := by
  apply ext_inj
  show (fit ((dy e j).ext * (dy f k).ext)).ext = _
  rw [dy_ext he hj, dy_ext hf hk]
  show (of _).ext = (of _).ext
  congr 2
  rw [zpow_add₀ (by norm_num)]
  push_cast
  ring

/-- A quotient that is whole. -/
theorem dy_div {j k : Int} (h0 : k ≠ 0) (hj : |j * k| ≤ cap) (hk : |k| ≤ cap) : dy 0 (j * k) / dy 0 k = dy 0 j := by
  have z : Expo 0 := ⟨by norm_num, by norm_num⟩
  apply ext_inj
  show (fit ((dy 0 (j * k)).ext / (dy 0 k).ext)).ext = _
  rw [dy_ext z hj, dy_ext z hk]
  have hq : ((k : ℚ)) ≠ 0 := by exact_mod_cast h0
  have e : (Ext.fin (((j * k : Int) : ℚ) * 2 ^ (0 : Int)) / Ext.fin ((k : ℚ) * 2 ^ (0 : Int)) : Ext ℚ) = .fin ((j : ℚ) * 2 ^ (0 : Int)) := by
    show Ext.div _ _ = _
    simp only [Ext.div, zpow_zero, mul_one]
    rw [if_neg hq]
    push_cast
    rw [mul_div_assoc, div_self hq, mul_one]
  rw [e]
  rfl

end Dbl
end Linalg
