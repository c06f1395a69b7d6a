import Verif.Spec.Round
import Verif.Spec.Order
import Mathlib.Algebra.BigOperators.Group.List.Basic
import Mathlib.Tactic.Linarith
import Mathlib.Tactic.Ring
import Mathlib.Tactic.FieldSimp
import Mathlib.Tactic.Positivity

/-!
# Rounded arithmetic: factors `1 + θ`
-/

namespace Linalg

/-! ## Rounding to nearest is a rounding -/

namespace Nearest

theorem scale_pos (p : Nat) (x : ℝ) : (0 : ℝ) < 2 ^ (Int.log 2 |x| + 1 - p) := zpow_pos (by norm_num) _

theorem two_pow_eq (p : Nat) (e : Int) : (2 : ℝ) ^ e = 2 ^ (e + 1 - p) * 2 ^ ((p : Int) - 1) := by
  rw [← zpow_add₀ (by norm_num)]
  congr 1
  ring

theorem ratio (p : Nat) {x : ℝ} (hx : x ≠ 0) :
    (2 : ℝ) ^ ((p : Int) - 1) ≤ |x / 2 ^ (Int.log 2 |x| + 1 - p)| ∧ |x / 2 ^ (Int.log 2 |x| + 1 - p)| < 2 ^ (p : Int) := by
  have hs := scale_pos p x
  have hx' : 0 < |x| := abs_pos.2 hx
  have h1 := Int.zpow_log_le_self (b := 2) (by norm_num) hx'
  have h2 := Int.lt_zpow_succ_log_self (b := 2) (by norm_num) |x|
  push_cast at h1 h2
  rw [abs_div, abs_of_pos hs]
  constructor
  · rw [le_div_iff₀ hs, ← zpow_add₀ (by norm_num)]
    convert h1 using 2
    ring
  · rw [div_lt_iff₀ hs, ← zpow_add₀ (by norm_num)]
    convert h2 using 2
    ring

theorem err (p : Nat) {x : ℝ} (hx : x ≠ 0) : |nearestFn p x - x| ≤ 2 ^ (Int.log 2 |x| + 1 - p) / 2 := by
  have hs := scale_pos p x
  unfold nearestFn
  rw [if_neg hx]
  have h := abs_sub_round (x / 2 ^ (Int.log 2 |x| + 1 - p))
  generalize hS : (2 : ℝ) ^ (Int.log 2 |x| + 1 - p) = s at *
  have e : (round (x / s) : ℝ) * s - x = -((x / s - round (x / s)) * s) := by field_simp; ring
  rw [e, abs_neg, abs_mul, abs_of_pos hs]
  nlinarith

theorem round_mono {x y : ℝ} (h : x ≤ y) : round x ≤ round y := by
  rw [round_eq, round_eq]
  exact Int.floor_le_floor (by linarith)

theorem abs_round_ge (m : ℤ) {y : ℝ} (h : (m : ℝ) ≤ |y|) : m ≤ |round y| := by
  rcases le_total 0 y with hy | hy
  · rw [abs_of_nonneg hy] at h
    have h2 : m ≤ round y := by
      have := round_mono h
      rwa [round_intCast] at this
    exact h2.trans (le_abs_self _)
  · rw [abs_of_nonpos hy] at h
    have h2 : round y ≤ -m := by
      have h3 : y ≤ ((-m : ℤ) : ℝ) := by push_cast; linarith
      have := round_mono h3
      rwa [round_intCast] at this
    have := neg_abs_le (round y)
    omega

theorem abs_round_le (m : ℤ) {y : ℝ} (h : |y| ≤ m) : |round y| ≤ m := by
  have h1 := abs_le.1 h
  have h2 := round_mono h1.2
  have h3 : round ((-m : ℤ) : ℝ) ≤ round y := round_mono (by push_cast; linarith [h1.1])
  rw [round_intCast] at h2 h3
  exact abs_le.2 ⟨h3, h2⟩

theorem mant (p : Nat) (hp : 0 < p) {x : ℝ} (hx : x ≠ 0) :
    (2 : ℤ) ^ (p - 1) ≤ |round (x / 2 ^ (Int.log 2 |x| + 1 - p))| ∧ |round (x / 2 ^ (Int.log 2 |x| + 1 - p))| ≤ (2 : ℤ) ^ p := by
  obtain ⟨h1, h2⟩ := ratio p hx
  constructor
  · apply abs_round_ge
    refine le_trans (le_of_eq ?_) h1
    have e : ((p : Int) - 1) = ((p - 1 : Nat) : Int) := by omega
    rw [e]
    push_cast
    rw [zpow_natCast]
  · apply abs_round_le
    refine le_trans h2.le (le_of_eq ?_)
    push_cast
    rw [zpow_natCast]

/-- The exponent of a number with a mantissa in range. -/
theorem log_mant {p : Nat} (hp : 0 < p) {m : ℤ} {e : Int} (h1 : (2 : ℤ) ^ (p - 1) ≤ |m|) (h2 : |m| < (2 : ℤ) ^ p) :
    Int.log 2 |(m : ℝ) * 2 ^ (e + 1 - p)| = e := by
  have hs : (0 : ℝ) < 2 ^ (e + 1 - p) := zpow_pos (by norm_num) _
  have hm : 0 < |(m : ℝ)| := by
    have : (0 : ℤ) < |m| := lt_of_lt_of_le (by positivity) h1
    have h : ((0 : ℤ) : ℝ) < (|m| : ℤ) := by exact_mod_cast this
    simpa using h
  have hx : 0 < |(m : ℝ) * 2 ^ (e + 1 - p)| := by rw [abs_mul, abs_of_pos hs]; positivity
  apply le_antisymm
  · rw [← Int.lt_add_one_iff]
    rw [← Int.lt_zpow_iff_log_lt (by norm_num) hx, abs_mul, abs_of_pos hs]
    have : |(m : ℝ)| < 2 ^ p := by
      have : ((|m| : ℤ) : ℝ) < ((2 ^ p : ℤ) : ℝ) := by exact_mod_cast h2
      simpa using this
    calc |(m : ℝ)| * 2 ^ (e + 1 - p) < 2 ^ p * 2 ^ (e + 1 - p) := by nlinarith
      _ = ((2 : ℕ) : ℝ) ^ (e + 1) := by
        push_cast
        rw [← zpow_natCast, ← zpow_add₀ (by norm_num)]
        congr 1; ring
  · rw [← Int.zpow_le_iff_le_log (by norm_num) hx, abs_mul, abs_of_pos hs]
    have h3 : (2 : ℝ) ^ (p - 1) ≤ |(m : ℝ)| := by
      have : ((2 ^ (p - 1) : ℤ) : ℝ) ≤ ((|m| : ℤ) : ℝ) := by exact_mod_cast h1
      simpa using this
    calc ((2 : ℕ) : ℝ) ^ e = 2 ^ (p - 1) * 2 ^ (e + 1 - p) := by
          push_cast
          rw [← zpow_natCast, ← zpow_add₀ (by norm_num)]
          congr 1; omega
      _ ≤ |(m : ℝ)| * 2 ^ (e + 1 - p) := by nlinarith

theorem nearest_mant {p : Nat} (hp : 0 < p) {m : ℤ} {e : Int} (h1 : (2 : ℤ) ^ (p - 1) ≤ |m|) (h2 : |m| < (2 : ℤ) ^ p) :
    nearestFn p ((m : ℝ) * 2 ^ (e + 1 - p)) = m * 2 ^ (e + 1 - p) := by
  unfold nearestFn
  rw [log_mant hp h1 h2]
  split
  · next h => exact h.symm
  · rw [mul_div_assoc, div_self (zpow_ne_zero _ (by norm_num)), mul_one, round_intCast]

theorem idem (p : Nat) (hp : 0 < p) (x : ℝ) : nearestFn p (nearestFn p x) = nearestFn p x := by
  by_cases hx : x = 0
  · subst hx
    simp [nearestFn]
  · obtain ⟨h1, h2⟩ := mant p hp hx
    have e : nearestFn p x = (round (x / 2 ^ (Int.log 2 |x| + 1 - p)) : ℝ) * 2 ^ (Int.log 2 |x| + 1 - p) := by
      unfold nearestFn
      rw [if_neg hx]
    generalize round (x / 2 ^ (Int.log 2 |x| + 1 - p)) = m at h1 h2 e
    generalize Int.log 2 |x| = k at e
    rw [e]
    rcases lt_or_eq_of_le h2 with h2 | h2
    · exact nearest_mant hp h1 h2
    · -- a carry: the mantissa is a power of two
      obtain ⟨m', hm'⟩ : ∃ m' : ℤ, m = m' * 2 ∧ |m'| = 2 ^ (p - 1) := by
        have hpow : (2 : ℤ) ^ p = 2 ^ (p - 1) * 2 := by
          rw [← pow_succ]; congr 1; omega
        rcases le_total 0 m with h | h
        · rw [abs_of_nonneg h] at h2
          exact ⟨2 ^ (p - 1), by rw [h2, hpow], abs_of_nonneg (by positivity)⟩
        · rw [abs_of_nonpos h] at h2
          exact ⟨-2 ^ (p - 1), by rw [neg_mul, ← hpow]; omega, by rw [abs_neg]; exact abs_of_nonneg (by positivity)⟩
      obtain ⟨rfl, h3⟩ := hm'
      have e2 : ((m' * 2 : ℤ) : ℝ) * 2 ^ (k + 1 - (p : Int)) = m' * 2 ^ (k + 1 + 1 - (p : Int)) := by
        push_cast
        rw [mul_assoc]
        congr 1
        rw [← zpow_one_add₀ (by norm_num)]
        congr 1; ring
      rw [e2]
      apply nearest_mant hp (le_of_eq h3.symm)
      rw [h3]
      exact pow_lt_pow_right₀ (by norm_num) (by omega)

theorem abs_ge (p : Nat) (hp : 0 < p) {x : ℝ} (hx : x ≠ 0) : (2 : ℝ) ^ Int.log 2 |x| ≤ |nearestFn p x| := by
  obtain ⟨h1, _⟩ := mant p hp hx
  have hs := scale_pos p x
  unfold nearestFn
  rw [if_neg hx, abs_mul, abs_of_pos hs]
  have h3 : (2 : ℝ) ^ (p - 1) ≤ |(round (x / 2 ^ (Int.log 2 |x| + 1 - p)) : ℝ)| := by
    have : ((2 ^ (p - 1) : ℤ) : ℝ) ≤ ((|round (x / 2 ^ (Int.log 2 |x| + 1 - p))| : ℤ) : ℝ) := by exact_mod_cast h1
    simpa using this
  calc (2 : ℝ) ^ Int.log 2 |x| = 2 ^ (p - 1) * 2 ^ (Int.log 2 |x| + 1 - p) := by
        rw [← zpow_natCast, ← zpow_add₀ (by norm_num)]
        congr 1; omega
    _ ≤ _ := by nlinarith

theorem half (p : Nat) (e : Int) : (2 : ℝ) ^ (e + 1 - p) / 2 = (1 / 2) ^ p * 2 ^ e := by
  rw [one_div, inv_pow, ← zpow_natCast, ← zpow_neg, ← zpow_add₀ (by norm_num), div_eq_iff (by norm_num),
    ← zpow_add_one₀ (by norm_num)]
  congr 1; ring

end Nearest

/-- Rounding to nearest with `p > 0` binary digits (53 for `double`), ties away from zero upwards, and no limit on the exponent. -/
noncomputable def Rounding.nearest (p : Nat) (hp : 0 < p) : Rounding where
  rnd := nearestFn p
  u := (1 / 2) ^ p
  close x := by
    by_cases hx : x = 0
    · subst hx; simp [nearestFn]
    · refine (Nearest.err p hx).trans ?_
      rw [Nearest.half]
      have h1 := Int.zpow_log_le_self (b := 2) (by norm_num) (abs_pos.2 hx)
      push_cast at h1
      have : (0 : ℝ) < (1 / 2) ^ p := by positivity
      nlinarith
  close' x := by
    by_cases hx : x = 0
    · subst hx; simp [nearestFn]
    · refine (Nearest.err p hx).trans ?_
      rw [Nearest.half]
      have h1 := Nearest.abs_ge p hp hx
      have : (0 : ℝ) < (1 / 2) ^ p := by positivity
      nlinarith
  idem := Nearest.idem p hp

/-- No rounding at all. -/
def Rounding.exact : Rounding := ⟨id, 0, by simp, by simp, by simp⟩

namespace Rounding
variable (r : Rounding)

theorem u_nonneg : 0 ≤ r.u := by
  have := (abs_nonneg _).trans (r.close 1)
  simpa using this

theorem rnd_zero : r.rnd 0 = 0 := by
  have := r.close 0
  simpa using this

theorem gamma_nonneg (n : Nat) : 0 ≤ r.gamma n := by
  unfold gamma
  have : 1 ≤ (1 + r.u) ^ n := one_le_pow₀ (by linarith [r.u_nonneg])
  linarith

theorem gamma_mono {m n : Nat} (h : m ≤ n) : r.gamma m ≤ r.gamma n := by
  unfold gamma
  have := pow_le_pow_right₀ (show 1 ≤ 1 + r.u by linarith [r.u_nonneg]) h
  linarith

theorem gamma_add (m n : Nat) : (1 + r.gamma m) * (1 + r.gamma n) - 1 = r.gamma (m + n) := by
  unfold gamma
  rw [pow_add]
  ring

/-- Factors that `n` roundings can give. -/
def Fac (n : Nat) (t : ℝ) : Prop := |t - 1| ≤ r.gamma n

variable {r}

theorem Fac.one (n : Nat) : r.Fac n 1 := by unfold Fac; simpa using r.gamma_nonneg n

theorem Fac.mono {m n : Nat} {t : ℝ} (h : r.Fac m t) (hmn : m ≤ n) : r.Fac n t := le_trans h (r.gamma_mono hmn)

theorem Fac.mul {m n : Nat} {s t : ℝ} (hs : r.Fac m s) (ht : r.Fac n t) : r.Fac (m + n) (s * t) := by
  unfold Fac at *
  rw [← r.gamma_add]
  have e : s * t - 1 = (s - 1) * (t - 1) + (s - 1) + (t - 1) := by ring
  rw [e]
  have h1 : |(s - 1) * (t - 1)| ≤ r.gamma m * r.gamma n := by
    rw [abs_mul]
    exact mul_le_mul hs ht (abs_nonneg _) (r.gamma_nonneg m)
  calc |(s - 1) * (t - 1) + (s - 1) + (t - 1)| ≤ |(s - 1) * (t - 1)| + |s - 1| + |t - 1| := abs_add_three _ _ _
    _ ≤ r.gamma m * r.gamma n + r.gamma m + r.gamma n := by linarith
    _ = (1 + r.gamma m) * (1 + r.gamma n) - 1 := by ring

/-- A rounding is a factor. -/
theorem rnd_fac (r : Rounding) (x : ℝ) : ∃ t, r.Fac 1 t ∧ r.rnd x = x * t := by
  by_cases hx : x = 0
  · exact ⟨1, Fac.one 1, by rw [hx, r.rnd_zero]; ring⟩
  · refine ⟨r.rnd x / x, ?_, by field_simp⟩
    unfold Fac gamma
    have e : r.rnd x / x - 1 = (r.rnd x - x) / x := by field_simp
    rw [e, abs_div, div_le_iff₀ (abs_pos.2 hx), pow_one]
    have := r.close x
    linarith

/-- A rounding is a factor on the rounded value. -/
theorem rnd_fac' (r : Rounding) (x : ℝ) : ∃ t, r.Fac 1 t ∧ x = r.rnd x * t := by
  by_cases hx : r.rnd x = 0
  · have h := r.close' x
    rw [hx] at h
    simp at h
    exact ⟨1, Fac.one 1, by rw [hx, h]; ring⟩
  · refine ⟨x / r.rnd x, ?_, by field_simp⟩
    unfold Fac gamma
    have e : x / r.rnd x - 1 = -((r.rnd x - x) / r.rnd x) := by field_simp; ring
    rw [e, abs_neg, abs_div, div_le_iff₀ (abs_pos.2 hx), pow_one]
    have := r.close' x
    linarith

theorem Fac.abs_sub {n : Nat} {t : ℝ} (h : r.Fac n t) (x : ℝ) : |x * t - x| ≤ r.gamma n * |x| := by
  have e : x * t - x = (t - 1) * x := by ring
  rw [e, abs_mul]
  exact mul_le_mul_of_nonneg_right h (abs_nonneg _)

/-- Adding up in rounded arithmetic: each term gets a factor. -/
theorem foldl_fac (r : Rounding) (l : List ℝ) (s : ℝ) : ∃ t0 : ℝ, ∃ ts : List ℝ, r.Fac l.length t0 ∧ ts.length = l.length ∧
    (∀ t ∈ ts, r.Fac l.length t) ∧ l.foldl (fun s a => r.rnd (s + a)) s = s * t0 + (List.zipWith (fun a t => a * t) l ts).sum := by
  induction l generalizing s with
  | nil => exact ⟨1, [], Fac.one _, rfl, by simp, by simp⟩
  | cons a l ih =>
    obtain ⟨t, ht, e⟩ := r.rnd_fac (s + a)
    obtain ⟨t0, ts, h0, h1, h2, h3⟩ := ih (r.rnd (s + a))
    have ht0 : r.Fac (a :: l).length (t * t0) := by
      have := ht.mul h0
      rwa [add_comm] at this
    refine ⟨t * t0, (t * t0) :: ts, ht0, by simp [h1], ?_, ?_⟩
    · intro t' ht'
      rcases List.mem_cons.1 ht' with rfl | ht'
      · exact ht0
      · exact (h2 t' ht').mono (by simp)
    · rw [List.foldl_cons, h3, e, List.zipWith_cons_cons, List.sum_cons]
      ring

/-- Adding up rounded products. -/
theorem dot_fac (r : Rounding) (l : List (ℝ × ℝ)) : ∃ ts : List ℝ, ts.length = l.length ∧ (∀ t ∈ ts, r.Fac l.length t) ∧
    @addUp ℝ _ r.add (l.map (fun p => r.rnd (p.1 * p.2))) = (List.zipWith (fun (p : ℝ × ℝ) t => p.1 * t * p.2) l ts).sum ∧
    @addOn ℝ _ r.add (l.map (fun p => r.rnd (p.1 * p.2))) = (List.zipWith (fun (p : ℝ × ℝ) t => p.1 * t * p.2) l ts).sum := by
  cases l with
  | nil => exact ⟨[], rfl, by simp, by simp [addUp], by simp [addOn]⟩
  | cons p l =>
    obtain ⟨t0, ts, h0, h1, h2, h3⟩ := r.foldl_fac (l.map (fun p => r.rnd (p.1 * p.2))) (r.rnd (p.1 * p.2))
    rw [List.length_map] at h0 h1 h2
    obtain ⟨t, ht, e⟩ := r.rnd_fac (p.1 * p.2)
    -- the factors of the products
    have hprod : ∃ qs : List ℝ, qs.length = l.length ∧ (∀ q ∈ qs, r.Fac 1 q) ∧
        l.map (fun p => r.rnd (p.1 * p.2)) = List.zipWith (fun (p : ℝ × ℝ) q => p.1 * p.2 * q) l qs := by
      clear h0 h1 h2 h3
      induction l with
      | nil => exact ⟨[], rfl, by simp, rfl⟩
      | cons p l ih =>
        obtain ⟨qs, g1, g2, g3⟩ := ih
        obtain ⟨q, hq, eq⟩ := r.rnd_fac (p.1 * p.2)
        refine ⟨q :: qs, by simp [g1], ?_, by rw [List.map_cons, g3, eq]; rfl⟩
        intro q' hq'
        rcases List.mem_cons.1 hq' with rfl | hq'
        · exact hq
        · exact g2 _ hq'
    obtain ⟨qs, g1, g2, g3⟩ := hprod
    have hsum : r.rnd (p.1 * p.2) * t0 + (List.zipWith (fun a t => a * t) (l.map (fun p => r.rnd (p.1 * p.2))) ts).sum
        = (List.zipWith (fun (p : ℝ × ℝ) t => p.1 * t * p.2) (p :: l) ((t * t0) :: List.zipWith (fun q t => q * t) qs ts)).sum := by
      rw [List.zipWith_cons_cons, List.sum_cons, e]
      congr 1
      · ring
      · rw [g3]
        clear h3 g3 g2 h2 e ht h0
        induction l generalizing qs ts with
        | nil => simp
        | cons p l ih =>
          cases qs with
          | nil => simp at g1
          | cons q qs =>
            cases ts with
            | nil => simp at h1
            | cons t ts =>
              simp only [List.zipWith_cons_cons, List.sum_cons]
              rw [ih ts (by simpa using h1) qs (by simpa using g1)]
              ring
    refine ⟨(t * t0) :: List.zipWith (fun q t => q * t) qs ts, by simp [h1, g1], ?_, ?_, ?_⟩
    · intro t' ht'
      rcases List.mem_cons.1 ht' with rfl | ht'
      · have := ht.mul h0
        rwa [add_comm] at this
      · obtain ⟨k, hk, rfl⟩ := List.mem_iff_getElem.1 ht'
        rw [List.getElem_zipWith]
        have := (g2 _ (List.getElem_mem (l := qs) (n := k) (by simp at hk; omega))).mul (h2 _ (List.getElem_mem (l := ts) (n := k) (by simp at hk; omega)))
        rwa [add_comm] at this
    · rw [← hsum, ← h3]
      unfold addUp
      rw [List.map_cons, List.foldl_cons]
      congr 1
      change r.rnd (0 + r.rnd (p.1 * p.2)) = _
      rw [zero_add, r.idem]
    · rw [← hsum, ← h3]
      rfl

/-- The bound that the factors give. -/
theorem zipWith_bound {r : Rounding} {n : Nat} (l : List (ℝ × ℝ)) (ts : List ℝ) (hl : ts.length = l.length) (h : ∀ t ∈ ts, r.Fac n t) :
    |(List.zipWith (fun (p : ℝ × ℝ) t => p.1 * t * p.2) l ts).sum - (l.map (fun p => p.1 * p.2)).sum|
      ≤ r.gamma n * (l.map (fun p => |p.1 * p.2|)).sum := by
  induction l generalizing ts with
  | nil => simp
  | cons p l ih =>
    cases ts with
    | nil => simp at hl
    | cons t ts =>
      simp only [List.zipWith_cons_cons, List.sum_cons, List.map_cons]
      have h1 := ih ts (by simpa using hl) (fun t ht => h t (by simp [ht]))
      have h2 := (h t (by simp)).abs_sub (p.1 * p.2)
      generalize (List.zipWith (fun (p : ℝ × ℝ) t => p.1 * t * p.2) l ts).sum = S at *
      generalize (l.map (fun p => p.1 * p.2)).sum = T at *
      have e : p.1 * t * p.2 + S - (p.1 * p.2 + T) = (p.1 * p.2 * t - p.1 * p.2) + (S - T) := by ring
      rw [e]
      have := abs_add_le (p.1 * p.2 * t - p.1 * p.2) (S - T)
      rw [mul_add]
      linarith

/-- The error of adding up rounded products. -/
theorem dot_bound (r : Rounding) (l : List (ℝ × ℝ)) :
    |@addUp ℝ _ r.add (l.map (fun p => r.rnd (p.1 * p.2))) - (l.map (fun p => p.1 * p.2)).sum|
      ≤ r.gamma l.length * (l.map (fun p => |p.1 * p.2|)).sum := by
  obtain ⟨ts, h1, h2, h3, -⟩ := r.dot_fac l
  rw [h3]
  exact zipWith_bound l ts h1 h2

/-- See `dot_bound`. -/
theorem dot_bound' (r : Rounding) (l : List (ℝ × ℝ)) :
    |@addOn ℝ _ r.add (l.map (fun p => r.rnd (p.1 * p.2))) - (l.map (fun p => p.1 * p.2)).sum|
      ≤ r.gamma l.length * (l.map (fun p => |p.1 * p.2|)).sum := by
  obtain ⟨ts, h1, h2, -, h3⟩ := r.dot_fac l
  rw [h3]
  exact zipWith_bound l ts h1 h2

/-- The error of adding up. -/
theorem sum_bound (r : Rounding) (l : List ℝ) :
    |@addUp ℝ _ r.add l - l.sum| ≤ r.gamma l.length * (l.map (fun a => |a|)).sum := by
  obtain ⟨t0, ts, h0, h1, h2, h3⟩ := r.foldl_fac l 0
  have e : @addUp ℝ _ r.add l = (List.zipWith (fun (p : ℝ × ℝ) t => p.1 * t * p.2) (l.map (fun a => (a, 1))) ts).sum := by
    have : @addUp ℝ _ r.add l = l.foldl (fun s a => r.rnd (s + a)) 0 := rfl
    rw [this, h3, zero_mul, zero_add, List.zipWith_map_left]
    simp
  have h := zipWith_bound (l.map (fun a => (a, (1 : ℝ)))) ts (by simpa using h1) h2
  rw [e]
  simpa [List.map_map, Function.comp_def] using h

end Rounding
end Linalg
