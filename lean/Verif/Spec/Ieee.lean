import Verif.Spec.RoundFlo
import Verif.Proof.Digits

/-!
# IEEE 754 double precision

`Dbl`: the numbers of type `double`, the infinities and NaN.  Every operation gives the exact result, rounded to the nearest number (ties to even), with gradual
underflow, and overflow to an infinity.  Only the sign of zero and the payload of NaN are left out.  The operations can be run.
-/

namespace Linalg
open Floats Io Print

/-- A `double` (with one zero and one NaN). -/
structure Dbl where
  ext : Ext ℚ
  isDouble : ∀ q, ext = .fin q → IsDouble q

namespace Dbl

theorem ext_inj {a b : Dbl} (h : a.ext = b.ext) : a = b := by
  cases a
  cases b
  cases h
  rfl

instance : DecidableEq Dbl := fun a b => decidable_of_iff (a.ext = b.ext) ⟨ext_inj, fun h => by rw [h]⟩

/-- Rounding to nearest, if there is no largest number. -/
def rnd (q : ℚ) : ℚ := if q < 0 then -roundBin (-q) else roundBin q

theorem rnd_isBin (q : ℚ) : IsBin (rnd q) := by
  unfold rnd
  split
  · next h =>
    obtain ⟨m, e, h1, h2, h3⟩ := roundBin_isBin (q := -q) (by linarith)
    exact ⟨-m, e, by rw [h1]; push_cast; ring, by rwa [abs_neg], h3⟩
  · next h => exact roundBin_isBin (by linarith)

/-- Round, and overflow. -/
def fit : Ext ℚ → Dbl
  | .fin q => if h : |rnd q| < 2 ^ 1024 then ⟨.fin (rnd q), fun d e => by cases e; exact (rnd_isBin q).isDouble h⟩ else ⟨.inf (decide (q < 0)), fun d e => by cases e⟩
  | .inf s => ⟨.inf s, fun d e => by cases e⟩
  | .nan => ⟨.nan, fun d e => by cases e⟩

/-- The number nearest to `q`. -/
def of (q : ℚ) : Dbl := fit (.fin q)

theorem isDouble_one : IsDouble 1 := ⟨1, 0, by norm_num, by norm_num, by norm_num, by norm_num⟩

theorem isDouble_zero : IsDouble 0 := ⟨0, 0, by norm_num, by norm_num, by norm_num, by norm_num⟩

instance : Floats Dbl where
  zero := ⟨.fin 0, fun d e => by cases e; exact isDouble_zero⟩
  one := ⟨.fin 1, fun d e => by cases e; exact isDouble_one⟩
  add a b := fit (a.ext + b.ext)
  sub a b := fit (a.ext - b.ext)
  mul a b := fit (a.ext * b.ext)
  div a b := fit (a.ext / b.ext)
  neg a := ⟨-a.ext, fun d e => by
    cases h : a.ext with
    | nan => rw [h] at e; cases e
    | inf s => rw [h] at e; cases e
    | fin x =>
      rw [h] at e
      obtain rfl : -x = d := Ext.fin.inj e
      exact (a.isDouble x h).neg⟩
  lt a b := Floats.lt a.ext b.ext
  eq a b := Floats.eq a.ext b.ext
  abs a := ⟨Floats.abs a.ext, fun d e => by
    cases h : a.ext with
    | nan => rw [h] at e; cases e
    | inf s => rw [h] at e; cases e
    | fin x =>
      rw [h] at e
      obtain rfl : |x| = d := Ext.fin.inj e
      exact (a.isDouble x h).abs⟩

/-! ## The error of the rounding -/

theorem roundEven_half {q : ℚ} (hq : 0 ≤ q) : |q - roundEven q| ≤ 1 / 2 :=
  (roundEven_nearest_int hq (round q)).trans (abs_sub_round q)

theorem roundBin_bound {q : ℚ} (hq : 0 ≤ q) : |roundBin q - q| ≤ (1 / 2) ^ 53 * q ∨ (q < 2 ^ (-1022 : Int) ∧ |roundBin q - q| ≤ 2 ^ (-1074 : Int) / 2 ∧ roundBin q = roundEven (q / 2 ^ (-1074 : Int)) * 2 ^ (-1074 : Int)) := by
  unfold roundBin
  simp only
  split
  · next h => left; simp [h]
  · next h0 =>
    have hq' : 0 < q := lt_of_le_of_ne hq (Ne.symm h0)
    have err : ∀ s : Int, |(roundEven (q / 2 ^ s) : ℚ) * 2 ^ s - q| ≤ 2 ^ s / 2 := by
      intro s
      have u0 : (0 : ℚ) < 2 ^ s := zpow_pos (by norm_num) _
      have h := roundEven_half (div_nonneg hq u0.le)
      have e : (roundEven (q / 2 ^ s) : ℚ) * 2 ^ s - q = -((q / 2 ^ s - roundEven (q / 2 ^ s)) * 2 ^ s) := by field_simp; ring
      rw [e, abs_neg, abs_mul, abs_of_pos u0]
      have := mul_le_mul_of_nonneg_right h u0.le
      linarith
    have h1 : (2 : ℚ) ^ Int.log 2 q ≤ q := by simpa using Int.zpow_log_le_self (b := 2) (by norm_num) hq'
    have h2 : q < (2 : ℚ) ^ (Int.log 2 q + 1) := by simpa using Int.lt_zpow_succ_log_self (b := 2) (by norm_num) q
    rcases le_or_gt (-1074) (Int.log 2 q - 52) with h | h
    · left
      rw [max_eq_right h]
      refine (err _).trans ?_
      have e1 : (2 : ℚ) ^ (Int.log 2 q - 52) / 2 = (1 / 2) ^ 53 * 2 ^ Int.log 2 q := by
        rw [zpow_sub₀ (by norm_num)]
        norm_num
        ring
      rw [e1]
      exact mul_le_mul_of_nonneg_left h1 (by positivity)
    · right
      rw [max_eq_left h.le]
      exact ⟨h2.trans_le (zpow_le_zpow_right₀ (by norm_num) (by omega)), err _, rfl⟩

/-- The error is at most half a unit in the last place. -/
theorem rnd_err (q : ℚ) : |rnd q - q| ≤ (1 / 2) ^ 53 * |q| + 2 ^ (-1074 : Int) / 2 := by
  have key : ∀ q : ℚ, 0 ≤ q → |roundBin q - q| ≤ (1 / 2) ^ 53 * q + 2 ^ (-1074 : Int) / 2 := by
    intro q hq
    have p1 : (0 : ℚ) ≤ 2 ^ (-1074 : Int) / 2 := div_nonneg (zpow_nonneg (by norm_num) _) (by norm_num)
    have p2 : (0 : ℚ) ≤ (1 / 2) ^ 53 * q := mul_nonneg (pow_nonneg (by norm_num) _) hq
    rcases roundBin_bound hq with h | ⟨-, h, -⟩
    · exact h.trans (le_add_of_nonneg_right p1)
    · exact h.trans (le_add_of_nonneg_left p2)
  unfold rnd
  split
  · next h =>
    rw [abs_of_neg h, show -roundBin (-q) - q = -(roundBin (-q) - -q) by ring, abs_neg]
    exact key _ (by linarith)
  · next h =>
    rw [abs_of_nonneg (a := q) (by linarith)]
    exact key _ (by linarith)

/-- Multiples of the least positive number are rounded without underflow. -/
theorem rnd_grid (q : ℚ) (k : Int) (hk : q = k * 2 ^ (-1074 : Int)) : |rnd q - q| ≤ (1 / 2) ^ 53 * |q| := by
  have u0 : (0 : ℚ) < 2 ^ (-1074 : Int) := zpow_pos (by norm_num) _
  have key : ∀ (q : ℚ) (k : Int), q = k * 2 ^ (-1074 : Int) → 0 ≤ q → |roundBin q - q| ≤ (1 / 2) ^ 53 * q := by
    intro q k hk hq
    rcases roundBin_bound hq with h | ⟨-, -, h⟩
    · exact h
    · have k0 : (0 : ℚ) ≤ k := by
        rw [hk] at hq
        exact nonneg_of_mul_nonneg_left hq u0
      obtain ⟨n, rfl⟩ := Int.eq_ofNat_of_zero_le (by exact_mod_cast k0 : (0 : Int) ≤ k)
      have e : q / 2 ^ (-1074 : Int) = (n : ℚ) := by
        rw [hk, mul_div_assoc, div_self u0.ne', mul_one]
        norm_cast
      rw [e, roundEven_nat] at h
      have : roundBin q - q = 0 := by
        rw [h, hk]
        push_cast
        ring
      rw [this, abs_zero]
      exact mul_nonneg (pow_nonneg (by norm_num) _) hq
  unfold rnd
  split
  · next h =>
    rw [abs_of_neg h, show -roundBin (-q) - q = -(roundBin (-q) - -q) by ring, abs_neg]
    exact key _ (-k) (by rw [hk]; push_cast; ring) (by linarith)
  · next h =>
    rw [abs_of_nonneg (a := q) (by linarith)]
    exact key _ k hk (by linarith)

theorem grid {q : ℚ} (h : IsDouble q) : ∃ k : Int, q = k * 2 ^ (-1074 : Int) := by
  obtain ⟨m, e, h1, -, h3, -⟩ := h
  refine ⟨m * 2 ^ (e - -1074).toNat, ?_⟩
  rw [h1, zpow_split 2 (by norm_num) e (-1074) h3]
  push_cast
  ring

theorem rnd_self {q : ℚ} (h : IsDouble q) : rnd q = q := by
  unfold rnd
  split
  · next h' => rw [roundBin_self h.neg (by linarith)]; ring
  · next h' => exact roundBin_self h (by linarith)

/-! ## The laws -/

theorem fit_fin {x : Ext ℚ} {y : ℚ} (h : (fit x).ext = .fin y) : ∃ z, x = .fin z ∧ y = rnd z := by
  cases x with
  | nan => cases h
  | inf s => cases h
  | fin z =>
    unfold fit at h
    simp only at h
    split at h
    · exact ⟨z, rfl, by simpa using h.symm⟩
    · cases h

theorem isNan_iff (a : Dbl) : IsNan a ↔ a.ext = .nan := Ext.isNan_iff a.ext

theorem isZero_iff (a : Dbl) : IsZero a ↔ a.ext = .fin 0 := Ext.isZero_iff a.ext

theorem rnd_zero : rnd 0 = 0 := rnd_self isDouble_zero

theorem fit_zero : (fit (.fin 0)).ext = .fin 0 := by
  unfold fit
  simp [rnd_zero]

theorem isFin_iff (a : Dbl) : IsFin a ↔ ∃ x, a.ext = .fin x := by
  unfold IsFin
  rw [isZero_iff]
  constructor
  · intro h
    obtain ⟨z, hz, -⟩ := fit_fin h
    cases e : a.ext with
    | nan => rw [e] at hz; cases hz
    | inf s =>
      rw [e] at hz
      have : Ext.add (.inf s) (.inf (!s)) = (.fin z : Ext ℚ) := hz
      cases s <;> simp [Ext.add] at this
    | fin x => exact ⟨x, rfl⟩
  · rintro ⟨x, e⟩
    have h1 : a.ext - a.ext = .fin (x + -x) := by rw [e]; rfl
    show (fit (a.ext - a.ext)).ext = .fin 0
    rw [h1, add_neg_cancel, fit_zero]

/-- The value of a number. -/
def toRat (a : Dbl) : ℚ := match a.ext with
  | .fin x => x
  | _ => 0

theorem real_le {a b : ℚ} (h : |a - b| ≤ (1 / 2) ^ 53 * |b|) : |(a : ℝ) - b| ≤ (1 / 2) ^ 53 * |(b : ℝ)| := by
  have h2 : ((|a - b| : ℚ) : ℝ) ≤ (((1 / 2) ^ 53 * |b| : ℚ) : ℝ) := Rat.cast_le.mpr h
  simpa only [Rat.cast_abs, Rat.cast_sub, Rat.cast_mul, Rat.cast_pow, Rat.cast_div, Rat.cast_one, Rat.cast_ofNat] using h2

noncomputable instance : RoundLaws Dbl where
  val a := (a.toRat : ℝ)
  u := (1 / 2) ^ 53
  eta := 2 ^ (-1074 : Int) / 2
  u_nonneg := pow_nonneg (by norm_num) _
  eta_nonneg := div_nonneg (zpow_nonneg (by norm_num) _) (by norm_num)
  zero_fin := (isFin_iff _).mpr ⟨0, rfl⟩
  val_zero := Rat.cast_zero
  add a b h := by
    obtain ⟨y, hy⟩ := (isFin_iff _).mp h
    obtain ⟨z, hz, rfl⟩ := fit_fin hy
    rw [isFin_iff, isFin_iff]
    unfold toRat
    simp only [show (a + b).ext = .fin (rnd z) from hy]
    have ga := a.isDouble
    have gb := b.isDouble
    revert hz ga gb
    cases a.ext with
    | nan => intro hz; cases hz
    | inf s =>
      cases b.ext with
      | nan => intro hz; cases hz
      | inf t => intro hz; have : (if s = t then Ext.inf s else Ext.nan) = Ext.fin z := hz; split at this <;> cases this
      | fin y => intro hz; cases hz
    | fin x =>
      cases b.ext with
      | nan => intro hz; cases hz
      | inf t => intro hz; cases hz
      | fin y =>
        intro hz ga gb
        obtain rfl : x + y = z := Ext.fin.inj hz
        obtain ⟨k, hk⟩ := grid (ga x rfl)
        obtain ⟨l, hl⟩ := grid (gb y rfl)
        refine ⟨⟨x, rfl⟩, ⟨y, rfl⟩, ?_⟩
        have := real_le (rnd_grid (x + y) (k + l) (by rw [hk, hl, Int.cast_add, add_mul]))
        rw [Rat.cast_add] at this
        exact this
  sub a b h := by
    obtain ⟨y, hy⟩ := (isFin_iff _).mp h
    obtain ⟨z, hz, rfl⟩ := fit_fin hy
    rw [isFin_iff, isFin_iff]
    unfold toRat
    simp only [show (a - b).ext = .fin (rnd z) from hy]
    have ga := a.isDouble
    have gb := b.isDouble
    revert hz ga gb
    cases a.ext with
    | nan => intro hz; cases hz
    | inf s =>
      cases b.ext with
      | nan => intro hz; cases hz
      | inf t => intro hz; have : (if s = !t then Ext.inf s else Ext.nan) = Ext.fin z := hz; split at this <;> cases this
      | fin y => intro hz; cases hz
    | fin x =>
      cases b.ext with
      | nan => intro hz; cases hz
      | inf t => intro hz; cases hz
      | fin y =>
        intro hz ga gb
        obtain rfl : x + -y = z := Ext.fin.inj hz
        obtain ⟨k, hk⟩ := grid (ga x rfl)
        obtain ⟨l, hl⟩ := grid (gb y rfl)
        refine ⟨⟨x, rfl⟩, ⟨y, rfl⟩, ?_⟩
        rw [← sub_eq_add_neg]
        have := real_le (rnd_grid (x - y) (k - l) (by rw [hk, hl, Int.cast_sub, sub_mul]))
        rw [Rat.cast_sub] at this
        exact this
  mul a b h := by
    obtain ⟨y, hy⟩ := (isFin_iff _).mp h
    obtain ⟨z, hz, rfl⟩ := fit_fin hy
    rw [isFin_iff, isFin_iff]
    unfold toRat
    simp only [show (a * b).ext = .fin (rnd z) from hy]
    revert hz
    cases a.ext with
    | nan => intro hz; cases hz
    | inf s =>
      cases b.ext with
      | nan => intro hz; cases hz
      | inf t => intro hz; cases hz
      | fin y =>
        intro hz
        have : (if y = 0 then Ext.nan else Ext.inf (s != decide (y < 0))) = Ext.fin z := hz
        split at this <;> cases this
    | fin x =>
      cases b.ext with
      | nan => intro hz; cases hz
      | inf t =>
        intro hz
        have : (if x = 0 then Ext.nan else Ext.inf (decide (x < 0) != t)) = Ext.fin z := hz
        split at this <;> cases this
      | fin y =>
        intro hz
        obtain rfl : x * y = z := Ext.fin.inj hz
        refine ⟨⟨x, rfl⟩, ⟨y, rfl⟩, ?_⟩
        have := rnd_err (x * y)
        have h2 : ((|rnd (x * y) - x * y| : ℚ) : ℝ) ≤ (((1 / 2) ^ 53 * |x * y| + 2 ^ (-1074 : Int) / 2 : ℚ) : ℝ) := Rat.cast_le.mpr this
        simpa only [Rat.cast_abs, Rat.cast_sub, Rat.cast_mul, Rat.cast_add, Rat.cast_pow, Rat.cast_zpow, Rat.cast_div, Rat.cast_one, Rat.cast_ofNat] using h2
  lt_val a b ha hb h := by
    obtain ⟨x, hx⟩ := (isFin_iff _).mp ha
    obtain ⟨y, hy⟩ := (isFin_iff _).mp hb
    have h' : Floats.lt a.ext b.ext = true := h
    rw [hx, hy] at h'
    unfold toRat
    simp only [hx, hy]
    have : decide (x < y) = true := h'
    exact_mod_cast of_decide_eq_true this

/-- The largest number. -/
def largest : ℚ := (2 ^ 53 - 1) * 2 ^ 971

theorem largest_lt : largest < 2 ^ 1024 := by decide +kernel

theorem isDouble_largest : IsDouble largest := ⟨2 ^ 53 - 1, 971, by unfold largest; push_cast; norm_num, by norm_num, by norm_num, le_rfl⟩

theorem rnd_le {q : ℚ} (h : |q| ≤ largest) : |rnd q| < 2 ^ 1024 := by
  have key : ∀ q : ℚ, 0 ≤ q → q ≤ largest → roundBin q < 2 ^ 1024 := by
    intro q h0 h
    by_contra hc
    have := roundBin_err isDouble_largest h0
    have hlt := largest_lt
    generalize largest = M at *
    generalize (2 : ℚ) ^ 1024 = L at *
    rw [abs_of_nonpos (by linarith), abs_of_nonpos (by linarith)] at this
    linarith
  unfold rnd
  split
  · next hq =>
    rw [abs_neg, abs_of_nonneg roundBin_nonneg]
    exact key _ (by linarith) (by rwa [abs_of_neg hq] at h)
  · next hq =>
    rw [abs_of_nonneg roundBin_nonneg]
    exact key _ (by linarith) (by rwa [abs_of_nonneg (by linarith)] at h)

theorem fit_le {q : ℚ} (h : |q| ≤ largest) : (fit (.fin q)).ext = .fin (rnd q) := by
  unfold fit
  simp only [rnd_le h, dif_pos]

noncomputable instance : RangeLaws Dbl where
  big := (largest : ℝ)
  big_nonneg := by
    have : (0 : ℚ) ≤ largest := by decide +kernel
    exact_mod_cast this
  add_fin a b ha hb h := by
    obtain ⟨x, hx⟩ := (isFin_iff _).mp ha
    obtain ⟨y, hy⟩ := (isFin_iff _).mp hb
    have h' : |((x + y : ℚ) : ℝ)| ≤ (largest : ℝ) := by
      have e : |(a.toRat : ℝ) + b.toRat| ≤ (largest : ℝ) := h
      unfold toRat at e
      rw [hx, hy] at e
      rwa [Rat.cast_add]
    rw [isFin_iff]
    have e : (a + b).ext = (fit (.fin (x + y))).ext := by
      show (fit (a.ext + b.ext)).ext = _
      rw [hx, hy]
      rfl
    rw [e, fit_le (by exact_mod_cast h')]
    exact ⟨_, rfl⟩
  mul_fin a b ha hb h := by
    obtain ⟨x, hx⟩ := (isFin_iff _).mp ha
    obtain ⟨y, hy⟩ := (isFin_iff _).mp hb
    have h' : |((x * y : ℚ) : ℝ)| ≤ (largest : ℝ) := by
      have e : |(a.toRat : ℝ) * b.toRat| ≤ (largest : ℝ) := h
      unfold toRat at e
      rw [hx, hy] at e
      rwa [Rat.cast_mul]
    rw [isFin_iff]
    have e : (a * b).ext = (fit (.fin (x * y))).ext := by
      show (fit (a.ext * b.ext)).ext = _
      rw [hx, hy]
      rfl
    rw [e, fit_le (by exact_mod_cast h')]
    exact ⟨_, rfl⟩

theorem fit_nan {a : Ext ℚ} (h : IsNan a) : IsNan (fit a) := by
  rw [Ext.isNan_iff] at h
  subst h
  rfl

instance : NanLaws Dbl where
  add_nan a b h := fit_nan (NanLaws.add_nan a.ext b.ext h)
  sub_nan a b h := fit_nan (NanLaws.sub_nan a.ext b.ext h)
  mul_nan a b h := fit_nan (NanLaws.mul_nan a.ext b.ext h)
  div_nan a b h := fit_nan (NanLaws.div_nan a.ext b.ext h)
  neg_nan a h := NanLaws.neg_nan a.ext h
  abs_nan a h := NanLaws.abs_nan a.ext h
  lt_nan a b h := NanLaws.lt_nan a.ext b.ext h
  eq_nan a b h := NanLaws.eq_nan a.ext b.ext h

theorem fit_isZero {a : Ext ℚ} (h : IsZero a) : IsZero (fit a) := by
  rw [Ext.isZero_iff] at h
  subst h
  rw [isZero_iff]
  exact fit_zero

instance : ZeroLaws Dbl where
  zero := (isZero_iff _).mpr rfl
  add a b h1 h2 := fit_isZero (ZeroLaws.add a.ext b.ext h1 h2)
  mul a b h := by
    refine fit_isZero (ZeroLaws.mul a.ext b.ext ?_)
    rw [isFin_iff, isFin_iff] at h
    rw [Ext.isFin_iff, Ext.isFin_iff]
    exact h
  fin a h := (isFin_iff a).mpr ⟨0, (isZero_iff a).mp h⟩
  div a b h1 h2 := fit_nan (ZeroLaws.div a.ext b.ext h1 h2)
  lt a b h1 h2 := ZeroLaws.lt a.ext b.ext h1 h2

end Dbl
end Linalg
