import Verif.Spec.Digits
import Verif.Props.PrintBlock
import Mathlib.Algebra.Order.Field.Power
import Mathlib.Tactic.FieldSimp

/-! # `double` as text: helper lemmas -/

namespace Linalg
open Cpp Print

namespace Io

/-! ## Rounding to a number of digits -/

theorem roundEven_nearest_int {q : ℚ} (hq : 0 ≤ q) (M : Int) : |q - roundEven q| ≤ |q - M| := by
  rcases le_or_gt 0 M with h | h
  · obtain ⟨m, rfl⟩ := Int.eq_ofNat_of_zero_le h
    have := (C110_nearest q hq).1 m
    simpa using this
  · have h0 := (C110_nearest q hq).1 0
    have : (M : ℚ) < 0 := by exact_mod_cast h
    rw [abs_of_nonneg (by linarith : (0 : ℚ) ≤ q - M)]
    rw [Nat.cast_zero, sub_zero, abs_of_nonneg hq] at h0
    linarith

theorem zpow_split (b : ℚ) (hb : b ≠ 0) (e s : Int) (h : s ≤ e) : b ^ e = b ^ (e - s).toNat * b ^ s := by
  rw [← zpow_natCast, ← zpow_add₀ hb]
  congr 1
  omega

/-- Rounding at the place `s` gives the nearest number with `p` digits. -/
theorem round_nearest {b : Nat} (hb : 2 ≤ b) {p : Nat} (hp : 1 ≤ p) (s : Int) {q : ℚ} (hq : 0 ≤ q) (m e : Int)
    (hm : |m| ≤ (b : Int) ^ p) (h : s ≤ e ∨ (b : ℚ) ^ (p - 1) * (b : ℚ) ^ s ≤ q) :
    |q - roundEven (q / (b : ℚ) ^ s) * (b : ℚ) ^ s| ≤ |q - m * (b : ℚ) ^ e| := by
  have b0 : (0 : ℚ) < b := by exact_mod_cast (by omega : 0 < b)
  have b1 : (1 : ℚ) ≤ b := by exact_mod_cast (by omega : 1 ≤ b)
  have u0 : (0 : ℚ) < (b : ℚ) ^ s := zpow_pos b0 s
  have key : ∀ M : Int, |q - roundEven (q / (b : ℚ) ^ s) * (b : ℚ) ^ s| ≤ |q - M * (b : ℚ) ^ s| := by
    intro M
    have := roundEven_nearest_int (div_nonneg hq u0.le) M
    have e1 : ∀ z : ℚ, |q - z * (b : ℚ) ^ s| = |q / (b : ℚ) ^ s - z| * (b : ℚ) ^ s := by
      intro z
      rw [← abs_of_pos u0, ← abs_mul, abs_of_pos u0]
      congr 1
      field_simp
    rw [e1, e1]
    exact mul_le_mul_of_nonneg_right this u0.le
  by_cases hse : s ≤ e
  · have := key (m * (b : Int) ^ (e - s).toNat)
    rw [zpow_split (b : ℚ) b0.ne' e s hse]
    push_cast at this
    rwa [mul_assoc] at this
  · have hq' := h.resolve_left hse
    have k1 := key ((b : Int) ^ (p - 1))
    push_cast at k1
    refine le_trans k1 ?_
    have hmq : (m : ℚ) ≤ (b : ℚ) ^ p := by
      have := le_trans (le_abs_self m) hm
      exact_mod_cast this
    have e2 : (b : ℚ) ^ e ≤ (b : ℚ) ^ (s - 1) := zpow_le_zpow_right₀ b1 (by omega)
    have e3 : (b : ℚ) ^ p * (b : ℚ) ^ (s - 1) = (b : ℚ) ^ (p - 1) * (b : ℚ) ^ s := by
      rw [← zpow_natCast, ← zpow_natCast, ← zpow_add₀ b0.ne', ← zpow_add₀ b0.ne']
      congr 1
      omega
    have e4 : (m : ℚ) * (b : ℚ) ^ e ≤ (b : ℚ) ^ (p - 1) * (b : ℚ) ^ s := by
      rw [← e3]
      calc (m : ℚ) * (b : ℚ) ^ e ≤ (b : ℚ) ^ p * (b : ℚ) ^ e := mul_le_mul_of_nonneg_right hmq (zpow_pos b0 e).le
        _ ≤ _ := mul_le_mul_of_nonneg_left e2 (pow_pos b0 p).le
    rw [abs_of_nonneg (by linarith), abs_of_nonneg (by linarith)]
    linarith

theorem roundEven_mono_nat {q : ℚ} (hq : 0 ≤ q) {n : Nat} : ((n : ℚ) ≤ q → n ≤ roundEven q) ∧ (q ≤ n → roundEven q ≤ n) := by
  have h := (C110_nearest q hq).1 n
  constructor
  · intro hn
    by_contra hc
    have hc' : ((roundEven q : Nat) : ℚ) + 1 ≤ n := by exact_mod_cast (by omega : roundEven q + 1 ≤ n)
    rw [abs_of_nonneg (by linarith), abs_of_nonneg (by linarith)] at h
    linarith
  · intro hn
    by_contra hc
    have hc' : (n : ℚ) + 1 ≤ ((roundEven q : Nat) : ℚ) := by exact_mod_cast (by omega : n + 1 ≤ roundEven q)
    rw [abs_of_nonpos (by linarith), abs_of_nonpos (by linarith)] at h
    linarith

theorem roundEven_nat (n : Nat) : roundEven (n : ℚ) = n :=
  le_antisymm ((roundEven_mono_nat (by positivity)).2 le_rfl) ((roundEven_mono_nat (by positivity)).1 le_rfl)

/-- A number that is as near to an integer as one that is rounded to it is rounded to it, too. -/
theorem roundEven_closer {a b : ℚ} (ha : 0 ≤ a) (hb : 0 ≤ b) (h : |b - roundEven a| ≤ |a - roundEven a|) : roundEven b = roundEven a := by
  have ea := roundEven_err ha
  rw [abs_sub_comm] at ea
  by_contra hne
  have nb := (C110_nearest b hb)
  have nb1 := nb.1 (roundEven a)
  have gap : (1 : ℚ) ≤ |((roundEven b : Nat) : ℚ) - ((roundEven a : Nat) : ℚ)| := by
    have : (1 : Int) ≤ |((roundEven b : Nat) : Int) - ((roundEven a : Nat) : Int)| := by
      exact Int.one_le_abs (by omega)
    exact_mod_cast this
  have tri : |((roundEven b : Nat) : ℚ) - ((roundEven a : Nat) : ℚ)| ≤ |b - roundEven b| + |b - roundEven a| := by
    rw [abs_sub_comm b (roundEven b : ℚ)]
    have := abs_add_le ((roundEven b : ℚ) - b) (b - roundEven a)
    simpa using this
  -- everything is a tie
  have t1 : |b - roundEven a| = 1 / 2 := by linarith
  have t2 : |b - roundEven b| = 1 / 2 := by linarith
  have t3 : |a - roundEven a| = 1 / 2 := by linarith
  have ev : roundEven b % 2 = 0 := nb.2 ⟨roundEven a, fun h => hne h.symm, by rw [t1, t2]⟩
  have eva : roundEven a % 2 = 0 := by
    apply (C110_nearest a ha).2
    rcases abs_eq (by norm_num : (0 : ℚ) ≤ 1 / 2) |>.1 t3 with h1 | h1
    · refine ⟨roundEven a + 1, by omega, ?_⟩
      rw [t3]; push_cast
      rw [show a - (((roundEven a : Nat) : ℚ) + 1) = -(1 / 2) by linarith]; norm_num
    · have : 1 ≤ roundEven a := by
        by_contra h0
        have : roundEven a = 0 := by omega
        rw [this] at h1
        norm_num at h1
        linarith
      refine ⟨roundEven a - 1, by omega, ?_⟩
      rw [t3, Nat.cast_sub this]
      rw [show a - (((roundEven a : Nat) : ℚ) - ((1 : Nat) : ℚ)) = 1 / 2 by push_cast; linarith]; norm_num
  have : |((roundEven b : Nat) : ℚ) - ((roundEven a : Nat) : ℚ)| ≤ 1 := by linarith
  have hz : |((roundEven b : Nat) : Int) - ((roundEven a : Nat) : Int)| ≤ 1 := by exact_mod_cast this
  rw [abs_le] at hz
  omega

/-! ## Decimal digits -/

/-- The number that the digits of `sci` stand for. -/
def decVal (p : Nat) (q : ℚ) : ℚ := (sci p q).1 * 10 ^ ((sci p q).2 - (p - 1))

theorem ten_pow_add (a b : Int) : (10 : ℚ) ^ a * 10 ^ b = 10 ^ (a + b) := (zpow_add₀ (by norm_num) a b).symm

theorem log_place {p : Nat} (hp : 1 ≤ p) {q : ℚ} (hq : 0 < q) :
    (10 : ℚ) ^ (p - 1) ≤ q / 10 ^ (Int.log 10 q - (p - 1)) ∧ q / 10 ^ (Int.log 10 q - (p - 1)) < (10 : ℚ) ^ p := by
  have h1 : (10 : ℚ) ^ Int.log 10 q ≤ q := by simpa using Int.zpow_log_le_self (b := 10) (by norm_num) hq
  have h2 : q < (10 : ℚ) ^ (Int.log 10 q + 1) := by simpa using Int.lt_zpow_succ_log_self (b := 10) (by norm_num) q
  have u0 : (0 : ℚ) < 10 ^ (Int.log 10 q - (p - 1)) := zpow_pos (by norm_num) _
  rw [le_div_iff₀ u0, div_lt_iff₀ u0, ← zpow_natCast, ← zpow_natCast, ten_pow_add, ten_pow_add]
  rw [show (((p - 1 : Nat) : Int) + (Int.log 10 q - (p - 1))) = Int.log 10 q by omega,
    show ((p : Int) + (Int.log 10 q - (p - 1))) = Int.log 10 q + 1 by omega]
  exact ⟨h1, h2⟩

theorem sci_round {p : Nat} (hp : 1 ≤ p) {q : ℚ} (hq : 0 < q) :
    10 ^ (p - 1) ≤ roundEven (q / 10 ^ (Int.log 10 q - (p - 1))) ∧ roundEven (q / 10 ^ (Int.log 10 q - (p - 1))) ≤ 10 ^ p := by
  obtain ⟨h1, h2⟩ := log_place hp hq
  have h0 : (0 : ℚ) ≤ q / 10 ^ (Int.log 10 q - (p - 1)) := le_trans (by positivity) h1
  constructor
  · exact (roundEven_mono_nat h0).1 (by push_cast; exact h1)
  · exact (roundEven_mono_nat h0).2 (by push_cast; exact h2.le)

theorem sci_digits {p : Nat} (hp : 1 ≤ p) {q : ℚ} (hq : 0 < q) : 10 ^ (p - 1) ≤ (sci p q).1 ∧ (sci p q).1 < 10 ^ p := by
  obtain ⟨h1, h2⟩ := sci_round hp hq
  unfold sci
  simp only
  split
  · exact ⟨le_rfl, Nat.pow_lt_pow_right (by norm_num) (by omega)⟩
  · exact ⟨h1, by omega⟩

theorem decVal_eq {p : Nat} (hp : 1 ≤ p) (q : ℚ) :
    decVal p q = roundEven (q / 10 ^ (Int.log 10 q - (p - 1))) * 10 ^ (Int.log 10 q - (p - 1)) := by
  unfold decVal sci
  simp only
  split
  · rename_i h
    rw [h]
    push_cast
    rw [← zpow_natCast, ← zpow_natCast, ten_pow_add, ten_pow_add]
    congr 1
    omega
  · rfl

theorem decVal_pos {p : Nat} (hp : 1 ≤ p) {q : ℚ} (hq : 0 < q) : 0 < decVal p q := by
  have := (sci_digits hp hq).1
  have h1 : 0 < (sci p q).1 := lt_of_lt_of_le (by positivity) this
  unfold decVal
  positivity

theorem decVal_isDec {p : Nat} (hp : 1 ≤ p) {q : ℚ} (hq : 0 < q) : IsDec p (decVal p q) := by
  refine ⟨(sci p q).1, _, by unfold decVal; push_cast; rfl, ?_⟩
  rw [Nat.abs_cast]
  exact_mod_cast (sci_digits hp hq).2

theorem decVal_nearest {p : Nat} (hp : 1 ≤ p) {q : ℚ} (hq : 0 < q) : Nearest (IsDec p) q (decVal p q) := by
  refine ⟨decVal_isDec hp hq, ?_⟩
  rintro d ⟨m, e, rfl, hm⟩
  rw [decVal_eq hp]
  have h1 := (log_place hp hq).1
  rw [le_div_iff₀ (zpow_pos (by norm_num) _)] at h1
  have := round_nearest (b := 10) (by norm_num) hp (Int.log 10 q - (p - 1)) hq.le m e (by exact_mod_cast hm.le) (Or.inr (by exact_mod_cast h1))
  exact_mod_cast this

theorem decVal_err' {p : Nat} (hp : 1 ≤ p) {q : ℚ} (hq : 0 < q) : |q - decVal p q| ≤ 1 / 2 * (10 ^ Int.log 10 q * 10 ^ (1 - (p : Int))) := by
  have u0 : (0 : ℚ) < 10 ^ (Int.log 10 q - (p - 1)) := zpow_pos (by norm_num) _
  have h2 := roundEven_err (div_nonneg hq.le u0.le)
  rw [decVal_eq hp]
  generalize hn : ((roundEven (q / 10 ^ (Int.log 10 q - (p - 1))) : Nat) : ℚ) = n at h2 ⊢
  have e1 : |q - n * 10 ^ (Int.log 10 q - (p - 1))| = |n - q / 10 ^ (Int.log 10 q - (p - 1))| * 10 ^ (Int.log 10 q - (p - 1)) := by
    rw [abs_sub_comm, ← abs_of_pos u0, ← abs_mul, abs_of_pos u0]
    congr 1
    field_simp
  rw [e1]
  calc _ ≤ 1 / 2 * (10 : ℚ) ^ (Int.log 10 q - (p - 1)) := mul_le_mul_of_nonneg_right h2 u0.le
    _ = 1 / 2 * ((10 : ℚ) ^ Int.log 10 q * 10 ^ (1 - (p : Int))) := by rw [ten_pow_add]; congr 2; ring

theorem decVal_err {p : Nat} (hp : 1 ≤ p) {q : ℚ} (hq : 0 < q) : |q - decVal p q| ≤ q * 10 ^ (1 - (p : Int)) / 2 := by
  have h1 : (10 : ℚ) ^ Int.log 10 q ≤ q := by simpa using Int.zpow_log_le_self (b := 10) (by norm_num) hq
  calc _ ≤ 1 / 2 * ((10 : ℚ) ^ Int.log 10 q * 10 ^ (1 - (p : Int))) := decVal_err' hp hq
    _ ≤ 1 / 2 * (q * 10 ^ (1 - (p : Int))) := by
        apply mul_le_mul_of_nonneg_left _ (by norm_num)
        exact mul_le_mul_of_nonneg_right h1 (zpow_pos (by norm_num) _).le
    _ = _ := by ring

/-- A number that has no more than `p` digits is its own rounding. -/
theorem decVal_self {p : Nat} (hp : 1 ≤ p) {q : ℚ} (hq : 0 < q) (h : IsDec p q) : decVal p q = q := by
  have := (decVal_nearest hp hq).2 q h
  rw [sub_self, abs_zero] at this
  have := abs_eq_zero.1 (le_antisymm this (abs_nonneg _))
  linarith

/-- The digits are determined by the number. -/
theorem sci_unique {p n m : Nat} {x y : Int} (hp : 1 ≤ p) (hn : 10 ^ (p - 1) ≤ n) (hn' : n < 10 ^ p) (hm : 10 ^ (p - 1) ≤ m) (hm' : m < 10 ^ p)
    (h : (n : ℚ) * 10 ^ (x - (p - 1)) = m * 10 ^ (y - (p - 1))) : n = m ∧ x = y := by
  have aux : ∀ {n m : Nat} {x y : Int}, 10 ^ (p - 1) ≤ n → n < 10 ^ p → 10 ^ (p - 1) ≤ m → m < 10 ^ p →
      (n : ℚ) * 10 ^ (x - (p - 1)) = m * 10 ^ (y - (p - 1)) → x ≤ y := by
    intro n m x y hn hn' hm hm' h
    by_contra hc
    have h1 : (10 : ℚ) ^ (y - (p - 1) + 1) ≤ 10 ^ (x - (p - 1)) := zpow_le_zpow_right₀ (by norm_num) (by omega)
    rw [zpow_add_one₀ (by norm_num)] at h1
    have u0 : (0 : ℚ) < 10 ^ (y - ((p : Int) - 1)) := zpow_pos (by norm_num) _
    have n0 : (10 : ℚ) ^ (p - 1) ≤ n := by exact_mod_cast hn
    have m0 : (m : ℚ) < 10 ^ p := by exact_mod_cast hm'
    have e : (10 : ℚ) ^ p = 10 ^ (p - 1) * 10 := by
      rw [← pow_succ]; congr 1; omega
    have : (n : ℚ) * (10 ^ (y - ((p : Int) - 1)) * 10) ≤ n * 10 ^ (x - ((p : Int) - 1)) := mul_le_mul_of_nonneg_left h1 (by positivity)
    rw [h] at this
    have h2 : (10 : ℚ) * n ≤ m := by
      have : (10 * n : ℚ) * 10 ^ (y - ((p : Int) - 1)) ≤ m * 10 ^ (y - ((p : Int) - 1)) := by linarith
      exact le_of_mul_le_mul_right this u0
    linarith
  have hxy : x = y := le_antisymm (aux hn hn' hm hm' h) (aux hm hm' hn hn' h.symm)
  subst hxy
  refine ⟨?_, rfl⟩
  have := mul_right_cancel₀ (zpow_ne_zero _ (by norm_num)) h
  exact_mod_cast this

theorem sci_eq_of_decVal {p : Nat} (hp : 1 ≤ p) {q q' : ℚ} (hq : 0 < q) (hq' : 0 < q') (h : decVal p q = decVal p q') : sci p q = sci p q' := by
  obtain ⟨a1, a2⟩ := sci_digits hp hq
  obtain ⟨b1, b2⟩ := sci_digits hp hq'
  obtain ⟨e1, e2⟩ := sci_unique hp a1 a2 b1 b2 h
  exact Prod.ext e1 e2

/-- A number that is as near to a decimal as one that is rounded to it is rounded to it, too, unless the decimal is a power of ten. -/
theorem decVal_closer {p : Nat} (hp : 1 ≤ p) {x y : ℚ} (hx : 0 < x) (hy : 0 < y) (hne : ¬IsTenPow (decVal p x))
    (h : |y - decVal p x| ≤ |x - decVal p x|) : decVal p y = decVal p x := by
  obtain ⟨r1, r2⟩ := sci_round hp hx
  have hd := decVal_eq hp x
  generalize hs : Int.log 10 x - (p - 1) = s at *
  have u0 : (0 : ℚ) < 10 ^ s := zpow_pos (by norm_num) _
  -- the digits are not at an end of their range
  have n1 : roundEven (x / 10 ^ s) ≠ 10 ^ (p - 1) := by
    intro hc
    apply hne
    refine ⟨(p - 1 : Nat) + s, ?_⟩
    rw [hd, hc, abs_of_pos (by positivity), ← ten_pow_add, zpow_natCast]; push_cast; rfl
  have n2 : roundEven (x / 10 ^ s) ≠ 10 ^ p := by
    intro hc
    apply hne
    refine ⟨(p : Int) + s, ?_⟩
    rw [hd, hc, abs_of_pos (by positivity), ← ten_pow_add, zpow_natCast]; push_cast; rfl
  have ex := roundEven_err (div_nonneg hx.le u0.le)
  have tr : ∀ z : ℚ, |z - roundEven (x / 10 ^ s) * 10 ^ s| = |z / 10 ^ s - roundEven (x / 10 ^ s)| * 10 ^ s := by
    intro z
    rw [← abs_of_pos u0, ← abs_mul, abs_of_pos u0]
    congr 1
    field_simp
  rw [hd, tr, tr] at h
  have h' := le_of_mul_le_mul_right h u0
  have close := roundEven_closer (div_nonneg hx.le u0.le) (div_nonneg hy.le u0.le) h'
  -- the place of `y` is that of `x`
  rw [abs_sub_comm] at ex
  have hy2 : |y / 10 ^ s - roundEven (x / 10 ^ s)| ≤ 1 / 2 := le_trans h' ex
  rw [abs_le] at hy2
  have lo : (10 : ℚ) ^ (p - 1) + 1 ≤ roundEven (x / 10 ^ s) := by exact_mod_cast (by omega : 10 ^ (p - 1) + 1 ≤ roundEven (x / 10 ^ s))
  have hi : ((roundEven (x / 10 ^ s) : Nat) : ℚ) + 1 ≤ 10 ^ p := by exact_mod_cast (by omega : roundEven (x / 10 ^ s) + 1 ≤ 10 ^ p)
  have lo' : (10 : ℚ) ^ (p - 1) ≤ y / 10 ^ s := by linarith
  have hi' : y / 10 ^ s < (10 : ℚ) ^ p := by linarith
  rw [le_div_iff₀ u0, ← zpow_natCast, ten_pow_add] at lo'
  rw [div_lt_iff₀ u0, ← zpow_natCast, ten_pow_add] at hi'
  have hl : Int.log 10 y = (p - 1 : Nat) + s := by
    apply le_antisymm
    · have := (Int.lt_zpow_iff_log_lt (b := 10) (by norm_num) hy).1 (by exact_mod_cast hi')
      omega
    · exact (Int.zpow_le_iff_le_log (b := 10) (by norm_num) hy).1 (by exact_mod_cast lo')
  rw [decVal_eq hp y, hl, show (((p - 1 : Nat) : Int) + s - (p - 1)) = s by omega, close, hd]

/-! ## Binary digits -/

/-- A number of type `double`, if there is no largest one. -/
def IsBin (q : ℚ) : Prop := ∃ m e : Int, q = m * 2 ^ e ∧ |m| < 2 ^ 53 ∧ -1074 ≤ e

theorem IsDouble.isBin {q : ℚ} (h : IsDouble q) : IsBin q := by
  obtain ⟨m, e, h1, h2, h3, _⟩ := h
  exact ⟨m, e, h1, h2, h3⟩

theorem IsDouble.neg {q : ℚ} (h : IsDouble q) : IsDouble (-q) := by
  obtain ⟨m, e, h1, h2, h3, h4⟩ := h
  exact ⟨-m, e, by rw [h1]; push_cast; ring, by rwa [abs_neg], h3, h4⟩

theorem IsDouble.abs {q : ℚ} (h : IsDouble q) : IsDouble |q| := by
  rcases abs_choice q with e | e <;> rw [e]
  · exact h
  · exact h.neg

theorem IsDec.neg {p : Nat} {q : ℚ} (h : IsDec p q) : IsDec p (-q) := by
  obtain ⟨m, e, h1, h2⟩ := h
  exact ⟨-m, e, by rw [h1]; push_cast; ring, by rwa [abs_neg]⟩

theorem IsDec.abs {p : Nat} {q : ℚ} (h : IsDec p q) : IsDec p |q| := by
  rcases abs_choice q with e | e <;> rw [e]
  · exact h
  · exact h.neg

theorem two_pow_add (a b : Int) : (2 : ℚ) ^ a * 2 ^ b = 2 ^ (a + b) := (zpow_add₀ (by norm_num) a b).symm

theorem IsBin.isDouble {q : ℚ} (h : IsBin q) (hlt : |q| < 2 ^ 1024) : IsDouble q := by
  obtain ⟨m, e, h1, h2, h3⟩ := h
  by_cases he : e ≤ 971
  · exact ⟨m, e, h1, h2, h3, he⟩
  · refine ⟨m * 2 ^ (e - 971).toNat, 971, ?_, ?_, by norm_num, le_rfl⟩
    · rw [h1, zpow_split 2 (by norm_num) e 971 (by omega)]; push_cast; ring
    · have : |q| = |((m * 2 ^ (e - 971).toNat : Int) : ℚ)| * 2 ^ (971 : Int) := by
        rw [h1, zpow_split 2 (by norm_num) e 971 (by omega)]
        push_cast
        rw [← mul_assoc, abs_mul, abs_of_pos (by positivity : (0 : ℚ) < 2 ^ (971 : Int))]
      rw [this] at hlt
      have e2 : (2 : ℚ) ^ 1024 = 2 ^ 53 * 2 ^ (971 : Int) := by
        rw [← zpow_natCast, ← zpow_natCast, two_pow_add]; norm_num
      rw [e2] at hlt
      have h4 := lt_of_mul_lt_mul_right hlt (by positivity)
      exact_mod_cast h4

theorem roundBin_nonneg {q : ℚ} : 0 ≤ roundBin q := by
  unfold roundBin
  simp only
  split
  · exact le_rfl
  · positivity

theorem roundBin_isBin {q : ℚ} (hq : 0 ≤ q) : IsBin (roundBin q) := by
  unfold roundBin
  simp only
  split
  · exact ⟨0, 0, by norm_num, by norm_num, by norm_num⟩
  · rename_i h0
    have hq' : 0 < q := lt_of_le_of_ne hq (Ne.symm h0)
    have h2 : q < (2 : ℚ) ^ (Int.log 2 q + 1) := by simpa using Int.lt_zpow_succ_log_self (b := 2) (by norm_num) q
    generalize hs : max (-1074) (Int.log 2 q - 52) = s
    have hs1 : -1074 ≤ s := by omega
    have hs2 : Int.log 2 q - 52 ≤ s := by omega
    have u0 : (0 : ℚ) < 2 ^ s := zpow_pos (by norm_num) _
    have hle : roundEven (q / 2 ^ s) ≤ 2 ^ 53 := by
      apply (roundEven_mono_nat (div_nonneg hq u0.le)).2
      rw [div_le_iff₀ u0]
      refine le_trans h2.le ?_
      rw [show (((2 ^ 53 : Nat) : ℚ)) = 2 ^ (53 : Int) by norm_num, two_pow_add]
      exact zpow_le_zpow_right₀ (by norm_num) (by omega)
    rcases Nat.lt_or_ge (roundEven (q / 2 ^ s)) (2 ^ 53) with hlt | hge
    · exact ⟨roundEven (q / 2 ^ s), s, by push_cast; rfl, by rw [Nat.abs_cast]; exact_mod_cast hlt, hs1⟩
    · refine ⟨1, 53 + s, ?_, by norm_num, by omega⟩
      rw [le_antisymm hle hge, ← two_pow_add]
      norm_num

theorem roundBin_nearest {q : ℚ} (hq : 0 ≤ q) : Nearest IsBin q (roundBin q) := by
  refine ⟨roundBin_isBin hq, ?_⟩
  rintro d ⟨m, e, rfl, hm, he⟩
  unfold roundBin
  simp only
  split
  · rename_i h0
    rw [h0, sub_self, abs_zero]
    exact abs_nonneg _
  · rename_i h0
    have hq' : 0 < q := lt_of_le_of_ne hq (Ne.symm h0)
    have h1 : (2 : ℚ) ^ Int.log 2 q ≤ q := by simpa using Int.zpow_log_le_self (b := 2) (by norm_num) hq'
    have := round_nearest (b := 2) (p := 53) le_rfl (by norm_num) (max (-1074) (Int.log 2 q - 52)) hq m e (by exact_mod_cast hm.le) (by
      rcases le_or_gt (Int.log 2 q - 52) (-1074) with h | h
      · left; omega
      · right
        rw [max_eq_right h.le]
        push_cast
        rw [← zpow_natCast, two_pow_add]
        rw [show (((53 - 1 : Nat) : Int) + (Int.log 2 q - 52)) = Int.log 2 q by push_cast; omega]
        exact h1)
    exact_mod_cast this

/-- Two of them are not close to each other. -/
theorem IsBin.gap {x y : ℚ} (hx : IsBin x) (hy : IsBin y) (x0 : 0 < x) (hne : x ≠ y) : x ≤ |x - y| * 2 ^ 53 := by
  obtain ⟨a, e, rfl, ha, _⟩ := hx
  obtain ⟨b, f, rfl, hb, _⟩ := hy
  have p0 : ∀ z : Int, (0 : ℚ) < 2 ^ z := fun z => zpow_pos (by norm_num) z
  have ha' : (a : ℚ) ≤ 2 ^ 53 := by
    have := le_trans (le_abs_self a) ha.le
    exact_mod_cast this
  have hb' : (b : ℚ) + 1 ≤ 2 ^ 53 := by
    have := lt_of_le_of_lt (le_abs_self b) hb
    exact_mod_cast this
  -- multiples of a unit
  have mult : ∀ (M : Int) (s : Int), (M : ℚ) * 2 ^ s ≠ 0 → (2 : ℚ) ^ s ≤ |(M : ℚ) * 2 ^ s| := by
    intro M s h
    have hM : M ≠ 0 := by rintro rfl; simp at h
    rw [abs_mul, abs_of_pos (p0 s)]
    have : (1 : ℚ) ≤ |(M : ℚ)| := by exact_mod_cast Int.one_le_abs hM
    have := mul_le_mul_of_nonneg_right this (p0 s).le
    linarith
  by_cases hef : e ≤ f
  · have eq : (a : ℚ) * 2 ^ e - b * 2 ^ f = ((a - b * 2 ^ (f - e).toNat : Int) : ℚ) * 2 ^ e := by
      rw [zpow_split 2 (by norm_num) f e hef]; push_cast; ring
    have hn : (a : ℚ) * 2 ^ e - b * 2 ^ f ≠ 0 := sub_ne_zero.2 hne
    rw [eq] at hn ⊢
    have h1 := mult _ _ hn
    have h2 := mul_le_mul_of_nonneg_right ha' (p0 e).le
    linarith
  · have hfe : f ≤ e := by omega
    have eq : (a : ℚ) * 2 ^ e - b * 2 ^ f = ((a * 2 ^ (e - f).toNat - b : Int) : ℚ) * 2 ^ f := by
      rw [zpow_split 2 (by norm_num) e f hfe]; push_cast; ring
    have hn : (a : ℚ) * 2 ^ e - b * 2 ^ f ≠ 0 := sub_ne_zero.2 hne
    have h1 : (2 : ℚ) ^ f ≤ |(a : ℚ) * 2 ^ e - b * 2 ^ f| := by
      rw [eq] at hn ⊢
      exact mult _ _ hn
    have h2 := mul_le_mul_of_nonneg_right hb' (p0 f).le
    by_cases hB : (a : ℚ) * 2 ^ e ≤ 2 ^ 53 * 2 ^ f
    · linarith
    · push Not at hB
      by_cases hef2 : e ≤ 53 + f
      · -- the bound of `y` is a multiple of the unit of `x`
        have eqB : (2 : ℚ) ^ 53 * 2 ^ f = ((2 ^ (53 + f - e).toNat : Int) : ℚ) * 2 ^ e := by
          rw [← zpow_natCast, two_pow_add]
          push_cast
          rw [zpow_split 2 (by norm_num) (53 + f) e hef2]
        have h3 : (2 : ℚ) ^ e ≤ (a : ℚ) * 2 ^ e - 2 ^ 53 * 2 ^ f := by
          have e3 : (a : ℚ) * 2 ^ e - 2 ^ 53 * 2 ^ f = ((a - 2 ^ (53 + f - e).toNat : Int) : ℚ) * 2 ^ e := by
            rw [eqB]; push_cast; ring
          have := mult (a - 2 ^ (53 + f - e).toNat) e (by rw [← e3]; linarith)
          rw [← e3, abs_of_pos (by linarith)] at this
          exact this
        have h4 := mul_le_mul_of_nonneg_right ha' (p0 e).le
        have h5 := p0 f
        have h6 := le_abs_self ((a : ℚ) * 2 ^ e - b * 2 ^ f)
        linarith
      · -- `y` is much smaller than `x`
        have h3 : (2 : ℚ) ^ 53 * 2 ^ f ≤ 2 ^ (e - 1) := by
          rw [← zpow_natCast, two_pow_add]
          exact zpow_le_zpow_right₀ (by norm_num) (by push_cast; omega)
        have h4 : (2 : ℚ) ^ e = 2 ^ (e - 1) * 2 := by rw [← zpow_add_one₀ (by norm_num)]; congr 1; ring
        have h5 : (2 : ℚ) ^ e ≤ a * 2 ^ e := by
          have := mult a e x0.ne'
          rwa [abs_of_pos x0] at this
        have h6 := le_abs_self ((a : ℚ) * 2 ^ e - b * 2 ^ f)
        have h7 := p0 f
        linarith

/-- Reading the rounded number gives something as near to it as the number that was rounded. -/
theorem roundBin_err {x d : ℚ} (hx : IsDouble x) (hd : 0 ≤ d) : |d - roundBin d| ≤ |d - x| := (roundBin_nearest hd).2 x hx.isBin

theorem roundBin_self {x : ℚ} (hx : IsDouble x) (h0 : 0 ≤ x) : roundBin x = x := by
  have := roundBin_err hx h0
  rw [sub_self, abs_zero] at this
  have := abs_eq_zero.1 (le_antisymm this (abs_nonneg _))
  linarith

/-! ## The text -/

theorem digitsVal_foldl (b : Text) (n : Nat) : b.foldl (fun n c => 10 * n + (c.toNat - 48)) n = n * 10 ^ b.length + digitsVal b := by
  induction b generalizing n with
  | nil => simp [digitsVal]
  | cons c b ih =>
    simp only [List.foldl_cons, List.length_cons, digitsVal]
    rw [ih, ih (10 * 0 + _)]
    ring

theorem digitsVal_concat (a b : Text) : digitsVal (a ++ b) = digitsVal a * 10 ^ b.length + digitsVal b := by
  conv_lhs => unfold digitsVal
  rw [List.foldl_append]
  exact digitsVal_foldl b _

theorem digitsVal_zeros (k : Nat) : digitsVal (List.replicate k '0') = 0 := by
  induction k with
  | zero => rfl
  | succ k ih =>
    rw [List.replicate_succ']
    rw [digitsVal_append, ih]
    rfl

/-- What is stripped is zeros. -/
theorem stripZeros_spec (t : Text) : ∃ k, t = stripZeros t ++ List.replicate k '0' := by
  refine ⟨(t.reverse.takeWhile (· == '0')).length, ?_⟩
  have h := List.takeWhile_append_dropWhile (p := (· == '0')) (l := t.reverse)
  have hz : t.reverse.takeWhile (· == '0') = List.replicate (t.reverse.takeWhile (· == '0')).length '0' := by
    rw [List.eq_replicate_iff]
    refine ⟨rfl, fun c hc => ?_⟩
    have := List.all_takeWhile (p := (· == '0')) (l := t.reverse)
    rw [List.all_eq_true] at this
    simpa using this c hc
  unfold stripZeros
  have := congrArg List.reverse h
  rw [List.reverse_append, List.reverse_reverse] at this
  conv_lhs => rw [← this]
  congr 1
  conv_lhs => rw [hz]
  rw [List.reverse_replicate]

theorem stripZeros_digits {t : Text} (h : ∀ c ∈ t, isDigit c = true) : ∀ c ∈ stripZeros t, isDigit c = true := by
  obtain ⟨k, hk⟩ := stripZeros_spec t
  intro c hc
  apply h
  rw [hk]
  exact List.mem_append_left _ hc

/-- Stripping zeros does not change the number. -/
theorem strip_val (a b : Text) (E : Int) :
    (digitsVal (a ++ stripZeros b) : ℚ) * 10 ^ (E - (stripZeros b).length) = digitsVal (a ++ b) * 10 ^ (E - b.length) := by
  obtain ⟨k, hk⟩ := stripZeros_spec b
  have hl : (b.length : Int) = (stripZeros b).length + k := by
    conv_lhs => rw [hk]
    simp
  have hv : digitsVal (a ++ b) = digitsVal (a ++ stripZeros b) * 10 ^ k := by
    conv_lhs => rw [hk, ← List.append_assoc, digitsVal_concat]
    rw [digitsVal_zeros]; simp
  rw [hv, hl]
  push_cast
  rw [mul_assoc, ← zpow_natCast, ten_pow_add]
  congr 2
  ring

/-- What can follow the digits of a number, the point apart. -/
def Stops (t : Text) : Prop := t = [] ∨ ∃ c r, t = c :: r ∧ isDigit c = false ∧ c ≠ '.'

theorem Ends.stops {t : Text} (h : Ends t) : Stops t := by
  rcases h with rfl | ⟨c, r, rfl, hc⟩
  · exact Or.inl rfl
  · exact Or.inr ⟨c, r, rfl, isSpace_not_digit hc, by rintro rfl; revert hc; decide⟩

theorem takeWhile_stops {a r : Text} (ha : ∀ c ∈ a, isDigit c = true) (hr : r = [] ∨ ∃ c r', r = c :: r' ∧ isDigit c = false) :
    (a ++ r).takeWhile isDigit = a ∧ (a ++ r).dropWhile isDigit = r := by
  induction a with
  | nil =>
    rcases hr with rfl | ⟨c, r, rfl, hc⟩
    · simp
    · simp [hc]
  | cons c a ih =>
    have i := ih (fun x hx => ha x (by simp [hx]))
    have hc := ha c (by simp)
    simp [hc, i.1, i.2]

theorem Stops.weak {t : Text} (h : Stops t) : t = [] ∨ ∃ c r', t = c :: r' ∧ isDigit c = false := by
  rcases h with rfl | ⟨c, r, rfl, hc, _⟩
  · exact Or.inl rfl
  · exact Or.inr ⟨c, r, rfl, hc⟩

/-- Reading digits with a fraction. -/
theorem scanFrac_withFrac (neg : Bool) {a b r : Text} (ha : ∀ c ∈ a, isDigit c = true) (hne : a ≠ []) (hb : ∀ c ∈ b, isDigit c = true) (hr : Stops r) :
    scanFrac neg ((withFrac a b ++ r).takeWhile isDigit) ((withFrac a b ++ r).dropWhile isDigit) = scanExp neg a (stripZeros b) r := by
  have hb' := stripZeros_digits hb
  unfold withFrac
  by_cases hs : stripZeros b = []
  · rw [if_pos hs, List.append_nil]
    obtain ⟨e1, e2⟩ := takeWhile_stops ha hr.weak
    rw [e1, e2, hs]
    rcases hr with rfl | ⟨c, r, rfl, hc, hd⟩
    · simp [scanFrac, hne]
    · simp [scanFrac, hne, hd]
  · rw [if_neg hs]
    obtain ⟨e1, e2⟩ := takeWhile_stops (r := '.' :: stripZeros b ++ r) ha (Or.inr ⟨'.', _, rfl, by decide⟩)
    rw [List.append_assoc, e1, e2]
    obtain ⟨e3, e4⟩ := takeWhile_stops hb' hr.weak
    simp only [scanFrac, List.cons_append, if_true]
    rw [e3, e4]
    simp [hne]

/-- The double nearest to `v`, if that is not too large. -/
def toDoubleQ (neg : Bool) (v : ℚ) : Option ℚ := if 2 ^ 1024 ≤ roundBin v then none else some (if neg then -roundBin v else roundBin v)

theorem toDouble_eq (neg : Bool) (n : Nat) (e : Int) : toDouble neg n e = toDoubleQ neg (n * 10 ^ e) := rfl

theorem scanExp_ends (neg : Bool) (a b : Text) {r : Text} (hr : Ends r) :
    scanExp neg a b r = (toDoubleQ neg (digitsVal (a ++ b) * 10 ^ (-(b.length : Int))), r) := by
  rcases hr with rfl | ⟨c, r, rfl, hc⟩
  · rfl
  · have h1 : c ≠ 'e' := by rintro rfl; revert hc; decide
    have h2 : c ≠ 'E' := by rintro rfl; revert hc; decide
    simp only [scanExp, h1, h2, or_self, if_false]
    rfl

theorem expDigits (x : Int) : (∀ c ∈ (if x.natAbs < 10 then '0' :: showNat x.natAbs else showNat x.natAbs), isDigit c = true) ∧
    digitsVal (if x.natAbs < 10 then '0' :: showNat x.natAbs else showNat x.natAbs) = x.natAbs ∧
    (if x.natAbs < 10 then '0' :: showNat x.natAbs else showNat x.natAbs) ≠ [] := by
  obtain ⟨h1, h2, c, t, h3, _⟩ := showNat_spec x.natAbs
  split
  · refine ⟨?_, ?_, by simp⟩
    · intro c hc
      rcases List.mem_cons.1 hc with rfl | hc
      · decide
      · exact h1 c hc
    · show digitsVal (['0'] ++ showNat x.natAbs) = _
      rw [digitsVal_concat, h2]
      simp [digitsVal]
  · exact ⟨h1, h2, by rw [h3]; simp⟩

theorem scanExp_exp (neg : Bool) (a b : Text) (x : Int) {r : Text} (hr : Ends r) :
    scanExp neg a b (expText x ++ r) = (toDoubleQ neg (digitsVal (a ++ b) * 10 ^ (x - b.length)), r) := by
  obtain ⟨h1, h2, h3⟩ := expDigits x
  unfold expText
  generalize (if x.natAbs < 10 then '0' :: showNat x.natAbs else showNat x.natAbs) = ds at *
  obtain ⟨e1, e2⟩ := takeWhile_digits h1 hr
  simp only [List.cons_append, scanExp, true_or, if_true]
  by_cases hx : x < 0
  · simp only [if_pos hx, scanSign, if_true, e1, e2, h2, if_neg h3, toDouble_eq]
    congr 5
    omega
  · have : ('+' : Char) ≠ '-' := by decide
    simp only [if_neg hx, scanSign, if_neg this, if_true, e1, e2, h2, if_neg h3, toDouble_eq, Bool.false_eq_true, if_false]
    congr 5
    omega

theorem expText_stops (x : Int) (r : Text) : Stops (expText x ++ r) := Or.inr ⟨'e', _, rfl, by decide, by decide⟩

/-- The text of digits and an exponent starts with a digit and is read as the number that they stand for. -/
theorem sciText_scan {p n : Nat} {x : Int} (hp : 1 ≤ p) (hn : n < 10 ^ p) (neg : Bool) {r : Text} (hr : Ends r) :
    scanFrac neg ((sciText p n x ++ r).takeWhile isDigit) ((sciText p n x ++ r).dropWhile isDigit) = (toDoubleQ neg (n * 10 ^ (x - (p - 1))), r) := by
  have hd := lastDigits_digit p n
  have hl := lastDigits_length p n
  have hv : digitsVal (lastDigits p n) = n := by
    have := digitsVal_lastDigits [] p n
    rw [List.nil_append, Nat.mod_eq_of_lt hn] at this
    simpa [digitsVal] using this
  unfold sciText
  simp only
  generalize lastDigits p n = ds at *
  have ht : ∀ k, ∀ c ∈ ds.take k, isDigit c = true := fun k c hc => hd c (List.mem_of_mem_take hc)
  have hdr : ∀ k, ∀ c ∈ ds.drop k, isDigit c = true := fun k c hc => hd c (List.mem_of_mem_drop hc)
  have hte : ∀ k : Nat, 1 ≤ k → ds.take k ≠ [] := fun k hk h => by
    have := congrArg List.length h
    simp [hl] at this
    omega
  split
  · rw [List.append_assoc, scanFrac_withFrac neg (ht 1) (hte 1 le_rfl) (hdr 1) (expText_stops x r), scanExp_exp neg _ _ _ hr, strip_val,
      List.take_append_drop, hv, List.length_drop, hl]
    congr 4
    omega
  · rename_i h1
    push Not at h1
    split
    · rename_i h2
      have hz : ∀ c ∈ List.replicate (-x - 1).toNat '0' ++ ds, isDigit c = true := by
        intro c hc
        rcases List.mem_append.1 hc with hc | hc
        · rw [(List.mem_replicate.1 hc).2]; decide
        · exact hd c hc
      rw [scanFrac_withFrac neg (by intro c hc; simp at hc; subst hc; decide) (by simp) hz hr.stops, scanExp_ends neg _ _ hr]
      have := strip_val ['0'] (List.replicate (-x - 1).toNat '0' ++ ds) 0
      rw [zero_sub, zero_sub] at this
      rw [this]
      have hv2 : digitsVal (['0'] ++ (List.replicate (-x - 1).toNat '0' ++ ds)) = n := by
        rw [digitsVal_concat, digitsVal_concat, digitsVal_zeros, hv]
        simp [digitsVal]
      rw [hv2, List.length_append, List.length_replicate, hl]
      congr 4
      omega
    · rename_i h2
      rw [scanFrac_withFrac neg (ht _) (hte _ (by omega)) (hdr _) hr.stops, scanExp_ends neg _ _ hr]
      have := strip_val (ds.take (x + 1).toNat) (ds.drop (x + 1).toNat) 0
      rw [zero_sub, zero_sub] at this
      rw [this, List.take_append_drop, hv, List.length_drop, hl]
      congr 4
      omega

theorem digit_head {c : Char} (h : isDigit c = true) : isSpace c = false ∧ c ≠ '-' ∧ c ≠ '+' := by
  refine ⟨?_, by rintro rfl; revert h; decide, by rintro rfl; revert h; decide⟩
  by_contra hc
  have := isSpace_not_digit (by simpa using hc : isSpace c = true)
  rw [h] at this
  cases this

theorem sciText_head {p n : Nat} {x : Int} (hp : 1 ≤ p) : ∃ c t, sciText p n x = c :: t ∧ isDigit c = true := by
  have hd := lastDigits_digit p n
  have hl := lastDigits_length p n
  unfold sciText
  simp only
  generalize lastDigits p n = ds at *
  match ds with
  | [] => simp at hl; omega
  | c :: t =>
    have hc := hd c (by simp)
    unfold withFrac
    split
    · exact ⟨c, _, rfl, hc⟩
    · split
      · exact ⟨'0', _, rfl, by decide⟩
      · rename_i h1 h2
        obtain ⟨k, hk⟩ : ∃ k, (x + 1).toNat = k + 1 := ⟨x.toNat, by omega⟩
        rw [hk]
        exact ⟨c, _, rfl, hc⟩

/-- Reading back what is written for a number. -/
theorem scan_general {p : Nat} (hp : 1 ≤ p) {q : ℚ} (hq : q ≠ 0) {r : Text} (hr : Ends r) :
    scanRat (generalText p q ++ r) = (toDoubleQ (decide (q < 0)) (decVal p |q|), r) := by
  have hp' : (if p = 0 then 1 else p) = p := if_neg (by omega)
  have hq' : 0 < |q| := abs_pos.2 hq
  have key := fun neg => sciText_scan (p := p) (n := (sci p |q|).1) (x := (sci p |q|).2) hp (sci_digits hp hq').2 neg hr
  unfold generalText scanRat
  simp only [hp', if_neg hq]
  by_cases hn : q < 0
  · simp only [if_pos hn, List.cons_append, List.nil_append, scanSign, if_true, decide_true, hn]
    exact key true
  · simp only [if_neg hn, List.nil_append, decide_eq_false hn]
    obtain ⟨c, t, hc, hd⟩ := sciText_head (p := p) (n := (sci p |q|).1) (x := (sci p |q|).2) hp
    obtain ⟨_, h1, h2⟩ := digit_head hd
    have := key false
    rw [hc] at this ⊢
    simp only [List.cons_append, scanSign, if_neg h1, if_neg h2] at this ⊢
    exact this

theorem scan_zero (p : Nat) {r : Text} (hr : Ends r) : scanRat (generalText p 0 ++ r) = (some 0, r) := by
  unfold generalText scanRat
  simp only [if_true]
  have h1 : ('0' : Char) ≠ '-' := by decide
  have h2 : ('0' : Char) ≠ '+' := by decide
  simp only [List.cons_append, List.nil_append, scanSign, if_neg h1, if_neg h2]
  obtain ⟨e1, e2⟩ := takeWhile_digits (a := ['0']) (by intro c hc; simp at hc; subst hc; decide) hr
  simp only [List.cons_append, List.nil_append] at e1 e2
  rw [e1, e2]
  have : scanFrac false ['0'] r = scanExp false ['0'] [] r := by
    rcases hr with rfl | ⟨c, r, rfl, hc⟩
    · rfl
    · have : c ≠ '.' := by rintro rfl; revert hc; decide
      simp [scanFrac, this]
  rw [this, scanExp_ends _ _ _ hr]
  congr 1
  have h0 : (digitsVal (['0'] ++ []) : ℚ) * 10 ^ (-(([] : Text).length : Int)) = 0 := by simp [digitsVal]
  rw [h0]
  unfold toDoubleQ roundBin
  simp

theorem general_head (p : Nat) (q : ℚ) : ∃ c t, generalText p q = c :: t ∧ isSpace c = false := by
  unfold generalText
  simp only
  split
  · exact ⟨_, _, rfl, rfl⟩
  · split
    · exact ⟨_, _, rfl, rfl⟩
    · obtain ⟨c, t, hc, hd⟩ := sciText_head (p := if p = 0 then 1 else p) (n := (sci (if p = 0 then 1 else p) |q|).1)
        (x := (sci (if p = 0 then 1 else p) |q|).2) (by split <;> omega)
      exact ⟨c, t, hc, (digit_head hd).1⟩

end Io
end Linalg
