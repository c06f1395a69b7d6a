import Verif.Proof.Digits
import Verif.Props.Io

/-!
# C113: what is lost when `double` values are written as text and read back

`WriteText`, `WriteCSR` and `WriteMTX` write 16 significant digits, `WriteCooList` writes 6.  17 are needed to read back every `double`.
-/

namespace Linalg
open Cpp Print

namespace Io

theorem Nearest.neg {S : ℚ → Prop} (hS : ∀ q, S q → S (-q)) {q d : ℚ} (h : Nearest S q d) : Nearest S (-q) (-d) := by
  refine ⟨hS _ h.1, fun d' hd' => ?_⟩
  have := h.2 (-d') (hS _ hd')
  rwa [show -q - -d = -(q - d) by ring, abs_neg, show -q - d' = -(q - -d') by ring, abs_neg]

theorem isDouble_zero : IsDouble 0 := ⟨0, 0, by norm_num, by norm_num, by norm_num, by norm_num⟩
theorem isDec_zero (p : Nat) : IsDec p 0 := ⟨0, 0, by norm_num, by simp⟩

/-- The sign of `x` given to `v`. -/
def signed (x v : ℚ) : ℚ := if x < 0 then -v else v

theorem signed_abs (x : ℚ) : signed x |x| = x := by
  unfold signed
  split
  · rw [abs_of_neg ‹_›]; ring
  · rw [abs_of_nonneg (by linarith)]

theorem abs_signed (x : ℚ) {v : ℚ} (hv : 0 ≤ v) : |signed x v| = v := by
  unfold signed
  split
  · rw [abs_neg, abs_of_nonneg hv]
  · rw [abs_of_nonneg hv]

theorem signed_sub (x v w : ℚ) : |signed x v - signed x w| = |v - w| := by
  unfold signed
  split
  · rw [show -v - -w = -(v - w) by ring, abs_neg]
  · rfl

theorem Nearest.signed {S : ℚ → Prop} (hS : ∀ q, S q → S (-q)) (x : ℚ) {q d : ℚ} (h : Nearest S q d) : Nearest S (signed x q) (signed x d) := by
  unfold Io.signed
  split
  · exact h.neg hS
  · exact h

/-- The value that is read, if one is. -/
def backVal (p : Nat) (x : ℚ) : ℚ := signed x (roundBin (decVal p |x|))

theorem Fmt.reads_unique {α : Type} {F : Fmt α} {v w w' : α} (h : F.Reads v w) (h' : F.Reads v w') : w = w' := by
  have a := h.back [] ends_nil
  rw [h'.back [] ends_nil] at a
  simpa using (congrArg Prod.fst a).symm

theorem scan_iff {p : Nat} (hp : 1 ≤ p) {x : ℚ} (hx : x ≠ 0) {r : Text} (hr : Ends r) :
    scanRat (generalText p x ++ r) = (if 2 ^ 1024 ≤ roundBin (decVal p |x|) then none else some (backVal p x), r) := by
  rw [scan_general hp hx hr]
  unfold toDoubleQ backVal signed
  by_cases h : x < 0 <;> simp [h]

theorem reads_of_lt {p : Nat} (hp : 1 ≤ p) {x : ℚ} (hx : x ≠ 0) (h : roundBin (decVal p |x|) < 2 ^ 1024) : (ratFmt p).Reads x (backVal p x) :=
  ⟨general_head p x, fun r hr => by
    show scanRat (generalText p x ++ r) = _
    rw [scan_iff hp hx hr, if_neg (not_le.2 h)]⟩

theorem reads_zero (p : Nat) : (ratFmt p).Reads 0 0 := ⟨general_head p 0, fun _ hr => scan_zero p hr⟩

theorem lt_of_reads {p : Nat} (hp : 1 ≤ p) {x y : ℚ} (hx : x ≠ 0) (h : (ratFmt p).Reads x y) : roundBin (decVal p |x|) < 2 ^ 1024 ∧ y = backVal p x := by
  have hb := h.back [] ends_nil
  change scanRat (generalText p x ++ []) = _ at hb
  rw [scan_iff hp hx ends_nil] at hb
  by_cases hc : (2 : ℚ) ^ 1024 ≤ roundBin (decVal p |x|)
  · rw [if_pos hc] at hb; simp at hb
  · rw [if_neg hc] at hb
    refine ⟨not_le.1 hc, ?_⟩
    simpa using hb.symm

theorem rounded_backVal {p : Nat} (hp : 1 ≤ p) {x : ℚ} (hx : x ≠ 0) (h : roundBin (decVal p |x|) < 2 ^ 1024) : Rounded p x (backVal p x) := by
  have hx' : 0 < |x| := abs_pos.2 hx
  have hd := decVal_pos hp hx'
  refine ⟨signed x (decVal p |x|), ?_, ?_⟩
  · have := (decVal_nearest hp hx').signed (fun q h => IsDec.neg h) x
    rwa [signed_abs] at this
  · refine Nearest.signed (fun q h => IsDouble.neg h) x ⟨?_, fun d' hd' => (roundBin_nearest hd.le).2 d' hd'.isBin⟩
    exact (roundBin_isBin hd.le).isDouble (by rwa [abs_of_nonneg roundBin_nonneg])

theorem isDec_tenPow {p : Nat} (hp : 1 ≤ p) (k : Int) : IsDec p (10 ^ k) :=
  ⟨1, k, by norm_num, by rw [abs_one]; exact_mod_cast Nat.one_lt_pow (by omega) (by norm_num : 1 < 10)⟩

theorem roundBin_lt {d : ℚ} (h0 : 0 ≤ d) (h : d ≤ (2 ^ 53 - 1) * 2 ^ 971) : roundBin d < 2 ^ 1024 := by
  by_contra hc
  push Not at hc
  have hm : IsDouble ((2 ^ 53 - 1) * 2 ^ 971) := ⟨2 ^ 53 - 1, 971, by push_cast; norm_num, by norm_num, by norm_num, le_rfl⟩
  have := roundBin_err hm h0
  have hlt : ((2 : ℚ) ^ 53 - 1) * 2 ^ 971 < 2 ^ 1024 := by decide +kernel
  generalize ((2 : ℚ) ^ 53 - 1) * 2 ^ 971 = M at *
  generalize (2 : ℚ) ^ 1024 = L at *
  rw [abs_of_nonpos (by linarith), abs_of_nonpos (by linarith)] at this
  linarith

theorem decVal_le {p : Nat} (hp : 1 ≤ p) {x M : ℚ} (hx : 0 < x) (hM : IsDec p M) (h : x ≤ M) : decVal p x ≤ M := by
  by_contra hc
  push Not at hc
  have := (decVal_nearest hp hx).2 M hM
  rw [abs_of_nonpos (by linarith), abs_of_nonpos (by linarith)] at this
  linarith

/-- **C113** A `double` up to `1e308` that is written with `p` digits is read as the `double` nearest to the decimal number with `p` digits nearest to it. -/
theorem C113_written (p : Nat) (hp : 1 ≤ p) (x : ℚ) (hx : IsDouble x) (hb : |x| ≤ 10 ^ 308) : ∃ y, Rounded p x y ∧ (ratFmt p).Reads x y := by
  by_cases h0 : x = 0
  · subst h0
    exact ⟨0, ⟨0, ⟨isDec_zero p, fun d _ => by simp⟩, ⟨isDouble_zero, fun d _ => by simp⟩⟩, reads_zero p⟩
  · have hd : decVal p |x| ≤ 10 ^ (308 : Int) := decVal_le hp (abs_pos.2 h0) (isDec_tenPow hp 308) (by exact_mod_cast hb)
    have hlt := roundBin_lt (decVal_pos hp (abs_pos.2 h0)).le (le_trans hd (by decide +kernel))
    exact ⟨_, rounded_backVal hp h0 hlt, reads_of_lt hp h0 hlt⟩

/-- **C113** What is read differs from what was written by at most one unit of the last digit written. -/
theorem C113_error (p : Nat) (hp : 1 ≤ p) (x y : ℚ) (hx : IsDouble x) (h : (ratFmt p).Reads x y) : IsDouble y ∧ |y - x| ≤ |x| * 10 ^ (1 - (p : Int)) := by
  by_cases h0 : x = 0
  · subst h0
    rw [Fmt.reads_unique h (reads_zero p)]
    exact ⟨isDouble_zero, by simp⟩
  · obtain ⟨hlt, rfl⟩ := lt_of_reads hp h0 h
    have hx' : 0 < |x| := abs_pos.2 h0
    have hd := decVal_pos hp hx'
    refine ⟨(rounded_backVal hp h0 hlt).choose_spec.2.1, ?_⟩
    have e1 := decVal_err hp hx'
    have e2 := roundBin_err hx.abs hd.le
    have e3 : |backVal p x - x| = abs (roundBin (decVal p |x|) - abs x) := by
      have := signed_sub x (roundBin (decVal p |x|)) |x|
      rw [signed_abs] at this
      exact this
    clear hlt h
    rw [e3]
    have tri := abs_add_le (roundBin (decVal p |x|) - decVal p |x|) (decVal p |x| - |x|)
    rw [sub_add_sub_cancel, abs_sub_comm (roundBin (decVal p |x|)) (decVal p |x|), abs_sub_comm (decVal p |x|) |x|] at tri
    rw [abs_sub_comm (decVal p |x|) |x|] at e2
    linarith

/-- **C113** A `double` with at most `p` significant decimal digits is read back. -/
theorem C113_exact (p : Nat) (hp : 1 ≤ p) (x : ℚ) (hx : IsDouble x) (h : IsDec p x) : (ratFmt p).RoundTrips x := by
  suffices hr : (ratFmt p).Reads x x from ⟨hr.first, hr.back⟩
  by_cases h0 : x = 0
  · subst h0; exact reads_zero p
  · have e1 := decVal_self hp (abs_pos.2 h0) h.abs
    have e2 : roundBin (decVal p |x|) = |x| := by rw [e1]; exact roundBin_self hx.abs (abs_nonneg x)
    have hlt : |x| < 2 ^ 1024 := by
      obtain ⟨m, e, rfl, hm, h1, h2⟩ := hx
      rw [abs_mul, abs_of_pos (zpow_pos (by norm_num : (0 : ℚ) < 2) e)]
      have hm' : |(m : ℚ)| < 2 ^ 53 := by exact_mod_cast hm
      calc |(m : ℚ)| * 2 ^ e < 2 ^ 53 * 2 ^ e := mul_lt_mul_of_pos_right hm' (zpow_pos (by norm_num) e)
        _ ≤ 2 ^ 53 * 2 ^ (971 : Int) := mul_le_mul_of_nonneg_left (zpow_le_zpow_right₀ (by norm_num) h2) (by norm_num)
        _ = 2 ^ 1024 := by rw [← zpow_natCast, two_pow_add]; norm_num
    have := reads_of_lt hp h0 (by rw [e2]; exact hlt)
    unfold backVal at this
    rwa [e2, signed_abs] at this

/-- **C113** Integers up to `2 ^ 53` are read back from the files of `WriteText`, `WriteCSR` and `WriteMTX`; from those of `WriteCooList`, up to a million. -/
theorem C113_integers (p : Nat) (hp : 1 ≤ p) (n : Int) (h53 : |n| ≤ 2 ^ 53) (h : |n| ≤ 10 ^ p) : (ratFmt p).RoundTrips (n : ℚ) := by
  apply C113_exact p hp
  · rcases lt_or_eq_of_le h53 with h | h
    · exact ⟨n, 0, by simp, h, by norm_num, by norm_num⟩
    · rcases abs_eq (by norm_num : (0 : Int) ≤ 2 ^ 53) |>.1 h with rfl | rfl
      · exact ⟨1, 53, by norm_num, by norm_num, by norm_num, by norm_num⟩
      · exact ⟨-1, 53, by norm_num, by norm_num, by norm_num, by norm_num⟩
  · rcases lt_or_eq_of_le h with h | h
    · exact ⟨n, 0, by simp, h⟩
    · have h10 : (1 : Int) < 10 ^ p := by exact_mod_cast Nat.one_lt_pow (by omega) (by norm_num : 1 < 10)
      rcases abs_eq (by positivity : (0 : Int) ≤ 10 ^ p) |>.1 h with rfl | rfl
      · exact ⟨1, p, by push_cast; rw [zpow_natCast, one_mul], by rwa [abs_one]⟩
      · exact ⟨-1, p, by push_cast; rw [zpow_natCast]; ring, by rwa [abs_neg, abs_one]⟩

/-- **C113** With 17 digits, every finite `double` would be read back. -/
theorem C113_seventeen (p : Nat) (hp : 17 ≤ p) (x : ℚ) (hx : IsDouble x) : (ratFmt p).RoundTrips x := by
  suffices hr : (ratFmt p).Reads x x from ⟨hr.first, hr.back⟩
  by_cases h0 : x = 0
  · subst h0; exact reads_zero p
  · have hx' : 0 < |x| := abs_pos.2 h0
    have hp1 : 1 ≤ p := by omega
    have hd := decVal_pos hp1 hx'
    have e1 := decVal_err hp1 hx'
    have e2 := roundBin_err hx.abs hd.le
    have e4 : (10 : ℚ) ^ (1 - (p : Int)) ≤ 10 ^ (-16 : Int) := zpow_le_zpow_right₀ (by norm_num) (by omega)
    have e5 : |x| * 10 ^ (1 - (p : Int)) ≤ |x| * 10 ^ (-16 : Int) := mul_le_mul_of_nonneg_left e4 hx'.le
    have e6 : (10 : ℚ) ^ (-16 : Int) = 1 / 10 ^ 16 := by norm_num
    rw [e6] at e5
    have same : roundBin (decVal p |x|) = |x| := by
      by_contra hne
      have g := hx.abs.isBin.gap (roundBin_isBin hd.le) hx' (Ne.symm hne)
      have tri := abs_add_le (|x| - decVal p |x|) (decVal p |x| - roundBin (decVal p |x|))
      rw [sub_add_sub_cancel] at tri
      rw [abs_sub_comm (decVal p |x|) |x|] at e2
      have : abs (abs x - roundBin (decVal p |x|)) ≤ |x| * (1 / 10 ^ 16) := by linarith
      have := mul_le_mul_of_nonneg_right this (by norm_num : (0 : ℚ) ≤ 2 ^ 53)
      have h1 : |x| * (1 / 10 ^ 16) * 2 ^ 53 < |x| := by
        rw [mul_assoc]
        calc |x| * (1 / 10 ^ 16 * 2 ^ 53) < |x| * 1 := mul_lt_mul_of_pos_left (by norm_num) hx'
          _ = |x| := mul_one _
      linarith
    have hlt : |x| < 2 ^ 1024 := by
      obtain ⟨m, e, rfl, hm, h1, h2⟩ := hx
      rw [abs_mul, abs_of_pos (zpow_pos (by norm_num : (0 : ℚ) < 2) e)]
      have hm' : |(m : ℚ)| < 2 ^ 53 := by exact_mod_cast hm
      calc |(m : ℚ)| * 2 ^ e < 2 ^ 53 * 2 ^ e := mul_lt_mul_of_pos_right hm' (zpow_pos (by norm_num) e)
        _ ≤ 2 ^ 53 * 2 ^ (971 : Int) := mul_le_mul_of_nonneg_left (zpow_le_zpow_right₀ (by norm_num) h2) (by norm_num)
        _ = 2 ^ 1024 := by rw [← zpow_natCast, two_pow_add]; norm_num
    have := reads_of_lt hp1 h0 (by rw [same]; exact hlt)
    unfold backVal at this
    rwa [same, signed_abs] at this

/-- **C113** `WriteText` and the others do not write enough digits: `0.1 + 0.2` and `0.3` are different numbers of type `double` with the same text, so
that no reader can tell them apart. -/
theorem C113_collapse : ∃ x x' : ℚ, IsDouble x ∧ IsDouble x' ∧ x ≠ x' ∧ generalText 16 x = generalText 16 x' ∧ generalText 16 x = "0.3".toList :=
  ⟨5404319552844596 / 2 ^ 54, 5404319552844595 / 2 ^ 54,
    ⟨5404319552844596, -54, by norm_num, by norm_num, by norm_num, by norm_num⟩,
    ⟨5404319552844595, -54, by norm_num, by norm_num, by norm_num, by norm_num⟩, by decide +kernel, by decide +kernel, by decide +kernel⟩

/-- **C113** Negation: a vector that `ReadText` does not get back from the file of `WriteText`. -/
theorem C113_text_false : ∃ v t w, writeTextDbl v true = .ok t ∧ readTextDbl (some t) = .ok w ∧ v = [.fin (5404319552844596 / 2 ^ 54)] ∧
    w = [.fin (5404319552844595 / 2 ^ 54)] ∧ v ≠ w :=
  ⟨_, "0.3\n".toList, _, by decide +kernel, by decide +kernel, rfl, rfl, by decide +kernel⟩

/-- **C113** Negation: the largest `double` is written as a number that is too large to be read; it and all that follows is lost, without an error. -/
theorem C113_max_false : IsDouble ((2 ^ 53 - 1) * 2 ^ 971) ∧ writeTextDbl [.fin 1, .fin ((2 ^ 53 - 1) * 2 ^ 971), .fin 2] true
    = .ok "1\n1.797693134862316e+308\n2\n".toList ∧ readTextDbl (some "1\n1.797693134862316e+308\n2\n".toList) = .ok [.fin 1] :=
  ⟨⟨2 ^ 53 - 1, 971, by push_cast; norm_num, by norm_num, by norm_num, le_rfl⟩, by decide +kernel, by decide +kernel⟩

/-- **C113** Negation: neither are infinities and NaN read; what follows them is lost. -/
theorem C113_inf_false (neg : Bool) : (∃ t, writeTextDbl [.fin 1, .inf neg, .fin 2] true = .ok t ∧ readTextDbl (some t) = .ok [.fin 1]) ∧
    (∃ t, writeTextDbl [.fin 1, .nan neg, .fin 2] true = .ok t ∧ readTextDbl (some t) = .ok [.fin 1]) := by
  cases neg <;> exact ⟨⟨_, rfl, by decide +kernel⟩, ⟨_, rfl, by decide +kernel⟩⟩

theorem text_eq_of_decVal {p : Nat} (hp : 1 ≤ p) {x y : ℚ} (hx : x ≠ 0) (hy : y ≠ 0) (hs : x < 0 ↔ y < 0) (h : decVal p |x| = decVal p |y|) :
    generalText p x = generalText p y := by
  have hp' : (if p = 0 then 1 else p) = p := if_neg (by omega)
  unfold generalText
  simp only [hp', if_neg hx, if_neg hy, hs, sci_eq_of_decVal hp (abs_pos.2 hx) (abs_pos.2 hy) h]

theorem decVal_half {p : Nat} (hp : 1 ≤ p) {x : ℚ} (h0 : 0 < x) : |x - decVal p x| < x / 2 := by
  have h1 : (10 : ℚ) ^ Int.log 10 x ≤ x := by simpa using Int.zpow_log_le_self (b := 10) (by norm_num) h0
  rcases lt_or_eq_of_le h1 with h | h
  · refine lt_of_le_of_lt (decVal_err' hp h0) ?_
    have e4 : (10 : ℚ) ^ (1 - (p : Int)) ≤ 10 ^ (0 : Int) := zpow_le_zpow_right₀ (by norm_num) (by omega)
    rw [zpow_zero] at e4
    have e5 := mul_le_mul_of_nonneg_left e4 (zpow_pos (by norm_num : (0 : ℚ) < 10) (Int.log 10 x)).le
    linarith
  · rw [decVal_self hp h0 (by rw [← h]; exact isDec_tenPow hp _), sub_self, abs_zero]
    linarith

/-- A number that is not zero is not read as zero. -/
theorem roundBin_pos {p : Nat} (hp : 1 ≤ p) {x : ℚ} (hx : IsDouble x) (h0 : 0 < x) : 0 < roundBin (decVal p x) := by
  rcases lt_or_eq_of_le (roundBin_nonneg (q := decVal p x)) with h | h
  · exact h
  · exfalso
    have hd := decVal_pos hp h0
    have e1 := roundBin_err hx hd.le
    rw [← h, sub_zero, abs_of_pos hd, abs_sub_comm] at e1
    have e2 := decVal_half hp h0
    have e3 := le_abs_self (x - decVal p x)
    linarith

theorem isTenPow_signed {x v : ℚ} (h : IsTenPow v) : IsTenPow (signed x v) := by
  obtain ⟨k, hk⟩ := h
  refine ⟨k, ?_⟩
  unfold signed
  split
  · rw [abs_neg, hk]
  · exact hk

theorem backVal_facts {p : Nat} (hp : 1 ≤ p) {x : ℚ} (hx : IsDouble x) (h0 : x ≠ 0) :
    backVal p x ≠ 0 ∧ |backVal p x| = roundBin (decVal p |x|) ∧ (x < 0 ↔ backVal p x < 0) := by
  have hb := roundBin_pos hp hx.abs (abs_pos.2 h0)
  have e : |backVal p x| = roundBin (decVal p |x|) := abs_signed x hb.le
  refine ⟨?_, e, ?_⟩
  · intro h
    rw [h, abs_zero] at e
    linarith
  · unfold backVal signed
    constructor
    · intro h; rw [if_pos h]; linarith
    · intro h
      by_contra hc
      rw [if_neg hc] at h
      linarith

theorem again {p : Nat} (hp : 1 ≤ p) {x : ℚ} (hx : IsDouble x) (h0 : x ≠ 0) (hd : ¬IsTenPow (decVal p |x|)) :
    decVal p |backVal p x| = decVal p |x| := by
  have hx' := abs_pos.2 h0
  obtain ⟨_, e, _⟩ := backVal_facts hp hx h0
  have hb := roundBin_pos hp hx.abs hx'
  rw [e]
  apply decVal_closer hp hx' hb hd
  rw [abs_sub_comm, abs_sub_comm (abs x)]
  exact roundBin_err hx.abs (decVal_pos hp hx').le

/-- **C113** (partial) Writing what has been read gives the same text as before, except perhaps next to a power of ten. -/
theorem C113_again_partial (p : Nat) (hp : 1 ≤ p) (x y : ℚ) (hx : IsDouble x) (h : (ratFmt p).Reads x y)
    (hd : ∀ d, Nearest (IsDec p) x d → ¬IsTenPow d) : generalText p y = generalText p x := by
  by_cases h0 : x = 0
  · subst h0
    rw [Fmt.reads_unique h (reads_zero p)]
  · obtain ⟨hlt, rfl⟩ := lt_of_reads hp h0 h
    have hx' := abs_pos.2 h0
    obtain ⟨b1, b2, b3⟩ := backVal_facts hp hx h0
    refine (text_eq_of_decVal hp h0 b1 b3 (again hp hx h0 ?_).symm).symm
    intro hc
    have := (decVal_nearest hp hx').signed (fun q h => IsDec.neg h) x
    rw [signed_abs] at this
    exact hd _ this (isTenPow_signed hc)

/-- **C113** Negation: the `double` after `1e23` is written as `1e+23`, read as the one before, and then written as `9.999999999999999e+22`. -/
theorem C113_again_false : ∃ x y, IsDouble x ∧ (ratFmt 16).Reads x y ∧ generalText 16 x = "1e+23".toList ∧ generalText 16 y = "9.999999999999999e+22".toList := by
  refine ⟨5960464477539063 * 2 ^ 24, 5960464477539062 * 2 ^ 24, ⟨5960464477539063, 24, by norm_num, by norm_num, by norm_num, by norm_num⟩, ?_,
    by decide +kernel, by decide +kernel⟩
  have e : roundBin (decVal 16 |5960464477539063 * 2 ^ 24|) = 5960464477539062 * 2 ^ 24 := by decide +kernel
  have := reads_of_lt (p := 16) (x := 5960464477539063 * 2 ^ 24) (by norm_num) (by norm_num) (by rw [e]; decide +kernel)
  rwa [show backVal 16 (5960464477539063 * 2 ^ 24) = 5960464477539062 * 2 ^ 24 by unfold backVal; rw [e]; decide +kernel] at this

/-- **C113** From the second time on, the text stays the same. -/
theorem C113_settles (p : Nat) (hp : 2 ≤ p) (x y z : ℚ) (hx : IsDouble x) (h : (ratFmt p).Reads x y) (h' : (ratFmt p).Reads y z) :
    generalText p z = generalText p y := by
  have hp1 : 1 ≤ p := by omega
  by_cases h0 : x = 0
  · subst h0
    rw [Fmt.reads_unique h (reads_zero p)] at h' ⊢
    rw [Fmt.reads_unique h' (reads_zero p)]
  · have hyd := (C113_error p hp1 x y hx h).1
    obtain ⟨hlt, rfl⟩ := lt_of_reads hp1 h0 h
    obtain ⟨b1, b2, b3⟩ := backVal_facts hp1 hx h0
    obtain ⟨hlt', rfl⟩ := lt_of_reads hp1 b1 h'
    obtain ⟨c1, c2, c3⟩ := backVal_facts hp1 hyd b1
    by_cases ht : IsTenPow (decVal p |backVal p x|)
    · by_cases ht' : IsTenPow (decVal p |x|)
      · -- the same power of ten
        suffices he : decVal p |backVal p x| = decVal p |x| by
          have : backVal p (backVal p x) = backVal p x := by
            show signed (backVal p x) (roundBin (decVal p |backVal p x|)) = _
            rw [he, ← b2]
            exact signed_abs _
          rw [this]
        have hx' := abs_pos.2 h0
        have hy' := abs_pos.2 b1
        have d0 := decVal_pos hp1 hx'
        have d1 := decVal_pos hp1 hy'
        have e1 := decVal_err hp1 hx'
        have e2 := roundBin_err hx.abs d0.le
        have e3 := (decVal_nearest hp1 hy').2 _ (decVal_isDec hp1 hx')
        rw [← b2] at e2
        have e4 : (10 : ℚ) ^ (1 - (p : Int)) ≤ 10 ^ (-1 : Int) := zpow_le_zpow_right₀ (by norm_num) (by omega)
        have e5 := mul_le_mul_of_nonneg_left e4 hx'.le
        have e6 : (10 : ℚ) ^ (-1 : Int) = 1 / 10 := by norm_num
        rw [e6] at e5
        clear hlt hlt' h h' e4 e6
        obtain ⟨k, hk⟩ := ht
        obtain ⟨l, hl⟩ := ht'
        rw [abs_of_pos d1] at hk
        rw [abs_of_pos d0] at hl
        rw [hl] at e1 e2 e3 ⊢
        rw [hk] at e3 ⊢
        rw [abs_sub_comm (10 ^ l : ℚ) |backVal p x|, abs_sub_comm (10 ^ l : ℚ) |x|] at e2
        rw [abs_le] at e1
        have f1 : abs (abs (backVal p x) - 10 ^ l) ≤ |x| / 20 := by
          refine le_trans e2 ?_
          rw [abs_le]; constructor <;> linarith
        have f2 := le_trans e3 f1
        rw [abs_le] at f1 f2
        rcases lt_trichotomy k l with hkl | hkl | hkl
        · exfalso
          have g : (10 : ℚ) ^ k * 10 ≤ 10 ^ l := by rw [← zpow_add_one₀ (by norm_num)]; exact zpow_le_zpow_right₀ (by norm_num) (by omega)
          linarith
        · rw [hkl]
        · exfalso
          have g : (10 : ℚ) ^ l * 10 ≤ 10 ^ k := by rw [← zpow_add_one₀ (by norm_num)]; exact zpow_le_zpow_right₀ (by norm_num) (by omega)
          linarith
      · rw [again hp1 hx h0 ht'] at ht
        exact absurd ht ht'
    · exact (text_eq_of_decVal hp1 b1 c1 c3 (again hp1 hyd b1 ht).symm).symm

/-! ## The files -/

theorem readLoop_lines' {β γ : Type} {step : IStream → Option (γ × IStream)} (line : β → Text) (val : β → γ) (xs : List β)
    (h1 : ∀ x ∈ xs, ∀ ws r, AllSpace ws → Ends r → step ⟨ws ++ line x ++ r, false⟩ = some (val x, ⟨r, false⟩))
    (h2 : ∀ ws, AllSpace ws → step ⟨ws, false⟩ = none) (fuel : Nat) (hf : xs.length < fuel) (ws : Text) (hw : AllSpace ws) :
    readLoop step fuel ⟨ws ++ xs.flatMap (fun x => line x ++ ['\n']), false⟩ = xs.map val := by
  induction xs generalizing fuel ws with
  | nil =>
    obtain ⟨f, rfl⟩ : ∃ f, fuel = f + 1 := ⟨fuel - 1, by omega⟩
    simp only [readLoop, List.flatMap_nil, List.append_nil, h2 ws hw, List.map_nil]
  | cons x xs ih =>
    simp only [List.length_cons] at hf
    obtain ⟨f, rfl⟩ : ∃ f, fuel = f + 1 := ⟨fuel - 1, by omega⟩
    have e : ws ++ (x :: xs).flatMap (fun x => line x ++ ['\n'])
        = ws ++ line x ++ ('\n' :: xs.flatMap (fun x => line x ++ ['\n'])) := by simp
    rw [e]
    simp only [readLoop]
    rw [h1 x (by simp) ws _ hw (ends_nl _)]
    simp only [List.map_cons]
    congr 1
    exact ih (fun y hy => h1 y (by simp [hy])) f (by omega) ['\n'] AllSpace.nl

theorem readAll_lines' {β γ : Type} {step : IStream → Option (γ × IStream)} (line : β → Text) (val : β → γ) (xs : List β)
    (h1 : ∀ x ∈ xs, ∀ ws r, AllSpace ws → Ends r → step ⟨ws ++ line x ++ r, false⟩ = some (val x, ⟨r, false⟩))
    (h2 : ∀ ws, AllSpace ws → step ⟨ws, false⟩ = none) :
    readAll step ⟨xs.flatMap (fun x => line x ++ ['\n']), false⟩ = xs.map val := by
  unfold readAll
  have := length_lines line xs
  exact readLoop_lines' line val xs h1 h2 _ (by simp only; omega) [] AllSpace.nil

variable {α : Type}

theorem extract_reads [Zero α] {F : Fmt α} {v w : α} (h : F.Reads v w) {ws r : Text} (hw : AllSpace ws) (hr : Ends r)
    (x : Option α) : extract F ⟨ws ++ F.put v ++ r, false⟩ x = (some w, ⟨r, false⟩) := by
  obtain ⟨c, t, hc, hs⟩ := h.first
  have hb := h.back r hr
  unfold extract
  rw [List.append_assoc]
  simp only [dropWhile_space hw, Bool.false_eq_true, if_false]
  rw [hc] at hb ⊢
  rw [List.cons_append] at hb ⊢
  rw [List.dropWhile_cons_of_neg (by simp [hs])]
  simp only [hb]

theorem step1_reads [Zero α] {F : Fmt α} {v w : α} (h : F.Reads v w) {ws r : Text} (hw : AllSpace ws) (hr : Ends r) :
    step1 F ⟨ws ++ F.put v ++ r, false⟩ = some (w, ⟨r, false⟩) := by
  unfold step1
  simp only [extract_reads h hw hr]
  rfl

theorem step3_reads [Zero α] {F : Fmt Int} {G : Fmt α} {i j : Int} {v w : α} (hi : F.RoundTrips i) (hj : F.RoundTrips j)
    (hv : G.Reads v w) {ws r : Text} (hw : AllSpace ws) (hr : Ends r) :
    step3 F G ⟨ws ++ (F.put i ++ [' '] ++ F.put j ++ [' '] ++ G.put v) ++ r, false⟩ = some ((i, j, w), ⟨r, false⟩) := by
  unfold step3
  have e : ws ++ (F.put i ++ [' '] ++ F.put j ++ [' '] ++ G.put v) ++ r
      = ws ++ (F.put i ++ [' '] ++ F.put j) ++ (' ' :: (G.put v ++ r)) := by simp
  rw [e, step2_put hi hj hw (ends_sp _)]
  simp only
  have := step1_reads hv (ws := [' ']) (r := r) AllSpace.sp hr
  simp only [List.cons_append, List.nil_append] at this
  rw [this]

theorem readInto_reads [Zero α] {F : Fmt α} (g : α → α) (xs : List α) (h : ∀ x ∈ xs, F.Reads x (g x)) (ws r : Text) (hw : AllSpace ws) :
    ∃ ws', AllSpace ws' ∧ readInto F xs.length ⟨ws ++ xs.flatMap (fun x => F.put x ++ ['\n']) ++ r, false⟩
      = (xs.map g, ⟨ws' ++ r, false⟩) := by
  induction xs generalizing ws with
  | nil => exact ⟨ws, hw, by simp [readInto]⟩
  | cons x xs ih =>
    obtain ⟨ws', hw', e'⟩ := ih (fun y hy => h y (by simp [hy])) ['\n'] AllSpace.nl
    refine ⟨ws', hw', ?_⟩
    have e : ws ++ (x :: xs).flatMap (fun x => F.put x ++ ['\n']) ++ r
        = ws ++ F.put x ++ ('\n' :: (xs.flatMap (fun x => F.put x ++ ['\n']) ++ r)) := by simp
    rw [e]
    simp only [readInto, List.length_cons, List.map_cons]
    rw [extract_reads (h x (by simp)) hw (ends_nl _)]
    simp only [List.cons_append, List.nil_append] at e'
    simp only [e', Option.getD_some]

theorem text_reads [Zero α] (F : Fmt α) (g : α → α) (v : List α) (h : ∀ x ∈ v, F.Reads x (g x)) :
    ∃ t, writeText F v true = .ok t ∧ readText F (some t) = .ok (v.map g) :=
  ⟨_, rfl, congrArg Except.ok (readAll_lines' F.put g v (fun x hx _ _ hw hr => step1_reads (h x hx) hw hr) (fun _ hw => step1_space F hw))⟩

theorem csr_reads [Zero α] (F : Fmt α) (g : α → α) (A : Csr α) (hA : A.WF) (h : ∀ x ∈ A.data, F.Reads x (g x)) :
    ∃ t, writeCsr F A true = .ok t ∧ readCsr F (some t) = .ok { A with data := A.data.map g } := by
  obtain ⟨n, rs, hn, hrs, rfl⟩ := hA.exists_rows
  refine ⟨_, rfl, ?_⟩
  simp only [Csr.ofRows] at h ⊢
  have p : ∀ x, intFmt.put x = showInt x := fun _ => rfl
  obtain ⟨w1, hw1, r1⟩ := readInto_lines (ptrs rs) (fun x _ => intFmt_roundTrips x) ['\n']
    ((rs.flatten.map Prod.fst).flatMap (fun i => showInt i ++ ['\n']) ++
      (rs.flatten.map Prod.snd).flatMap (fun d => F.put d ++ ['\n'])) AllSpace.nl
  obtain ⟨w2, hw2, r2⟩ := readInto_lines (rs.flatten.map Prod.fst) (fun x _ => intFmt_roundTrips x) w1
    ((rs.flatten.map Prod.snd).flatMap (fun d => F.put d ++ ['\n'])) hw1
  obtain ⟨w3, hw3, r3⟩ := readInto_reads g (rs.flatten.map Prod.snd) h w2 [] hw2
  have e1 := extract_put (intFmt_roundTrips (rs.length : Int)) (ws := []) (r := '\n' :: (showInt n ++ ['\n'] ++
    (ptrs rs).flatMap (fun i => showInt i ++ ['\n']) ++ (rs.flatten.map Prod.fst).flatMap (fun i => showInt i ++ ['\n']) ++
      (rs.flatten.map Prod.snd).flatMap (fun d => F.put d ++ ['\n']))) AllSpace.nil (ends_nl _) none
  have e2 := extract_put (intFmt_roundTrips n) (ws := ['\n']) (r := '\n' :: (
    (ptrs rs).flatMap (fun i => showInt i ++ ['\n']) ++ ((rs.flatten.map Prod.fst).flatMap (fun i => showInt i ++ ['\n']) ++
      (rs.flatten.map Prod.snd).flatMap (fun d => F.put d ++ ['\n'])))) AllSpace.nl (ends_nl _) none
  simp only [p, List.nil_append, List.cons_append, List.append_nil, List.append_assoc] at e1 e2 r1 r2 r3
  unfold readCsr openIn
  simp only [ok_bind]
  have et : ∀ a b c d e : Text, a ++ ['\n'] ++ (b ++ ['\n']) ++ c ++ d ++ e = a ++ '\n' :: (b ++ '\n' :: (c ++ (d ++ e))) := by
    intros; simp
  rw [et, e1]
  simp only
  rw [e2]
  simp only [useVar, ok_bind]
  rw [if_neg (by omega)]
  rw [show (rs.length : Int).toNat + 1 = (ptrs rs).length by simp, r1]
  simp only
  have hz : rd (ptrs rs) (((ptrs rs).length : Int) - 1) = .ok ((rs.flatten.length : Nat) : Int) := by
    have := rd_ptrs rs rs.length le_rfl
    rw [List.take_length] at this
    rw [← this, length_ptrs]
    congr 1
    push_cast; ring
  rw [hz, ok_bind, if_neg (by omega), Int.toNat_natCast]
  have l1 : (rs.flatten.map Prod.fst).length = rs.flatten.length := List.length_map _
  have l2 : (rs.flatten.map Prod.snd).length = rs.flatten.length := List.length_map _
  rw [l1] at r2
  rw [l2] at r3
  rw [r2]
  simp only
  rw [r3]
  -- the matrix with the other values
  have hrs' : ∀ r ∈ rs.map (fun r => r.map (fun e : Int × α => (e.1, g e.2))), ∀ e ∈ r, 0 ≤ e.1 ∧ e.1 < n := by
    intro r hr e he
    obtain ⟨r', hr', rfl⟩ := List.mem_map.1 hr
    obtain ⟨e', he', rfl⟩ := List.mem_map.1 he
    exact hrs r' hr' e' he'
  have ho := Csr.ofArrays_ofRows hn hrs'
  have ep : ptrs (rs.map (fun r => r.map (fun e : Int × α => (e.1, g e.2)))) = ptrs rs := by
    apply ptrs_congr
    simp [Function.comp_def]
  have ef : (rs.map (fun r => r.map (fun e : Int × α => (e.1, g e.2)))).flatten = rs.flatten.map (fun e => (e.1, g e.2)) := by
    rw [List.map_flatten]
  have e1 : (rs.map (fun r => r.map (fun e : Int × α => (e.1, g e.2)))).flatten.map Prod.fst = rs.flatten.map Prod.fst := by
    rw [ef, List.map_map]; rfl
  have e2 : (rs.map (fun r => r.map (fun e : Int × α => (e.1, g e.2)))).flatten.map Prod.snd = (rs.flatten.map Prod.snd).map g := by
    rw [ef, List.map_map, List.map_map]; rfl
  unfold Csr.ofRows at ho
  rw [ep, e1, e2, List.length_map] at ho
  exact ho

/-- Other values at the same places. -/
theorem wf_mapData {A : Csr α} (hA : A.WF) (g : α → α) : ({ A with data := A.data.map g } : Csr α).WF :=
  ⟨hA.rows_nonneg, hA.cols_nonneg, hA.indptr_len, hA.indptr_first, hA.indptr_mono, by simpa using hA.indptr_last, by simpa using hA.indices_len,
    hA.cols_ok⟩

theorem row_mapData (A : Csr α) (g : α → α) (i : Int) : ({ A with data := A.data.map g } : Csr α).row i = (A.row i).map (fun e => (e.1, g e.2)) := by
  unfold Csr.row
  simp only
  split
  · have : A.indices.zip (A.data.map g) = (A.indices.zip A.data).map (fun e => (e.1, g e.2)) := by
      rw [List.zip_map_right]; rfl
    rw [this, ← List.map_drop, ← List.map_take]
  · rfl

theorem entries_mapData (A : Csr α) (g : α → α) :
    entries ({ A with data := A.data.map g } : Csr α) = (entries A).map (fun e => (e.1, e.2.1, g e.2.2)) := by
  unfold entries
  rw [List.map_flatMap]
  apply List.flatMap_congr
  intro i _
  rw [row_mapData, List.map_map, List.map_map]
  rfl

theorem step3_list_reads [Zero α] (F : Fmt α) (g : α → α) (l : List (Int × Int × α)) (h : ∀ e ∈ l, F.Reads e.2.2 (g e.2.2)) :
    readAll (step3 intFmt F) ⟨l.flatMap (fun e => showInt e.1 ++ [' '] ++ showInt e.2.1 ++ [' '] ++ F.put e.2.2 ++ ['\n']), false⟩
      = l.map (fun e => (e.1, e.2.1, g e.2.2)) :=
  readAll_lines' (fun e : Int × Int × α => showInt e.1 ++ [' '] ++ showInt e.2.1 ++ [' '] ++ F.put e.2.2) _ l
    (fun e he _ _ hw hr => step3_reads (intFmt_roundTrips e.1) (intFmt_roundTrips e.2.1) (h e he) hw hr)
    (fun _ hw => step3_space intFmt F hw)

/-- A file is read as the file with the values that are read, in a format in which they are not changed. -/
theorem readMtx_reads [Zero α] [Add α] (F G : Fmt α) (g : α → α) (hs : List Text) (hc : ∀ h ∈ hs, '\n' ∉ h ∧ h.head? = some '%') (r c z : Int)
    (l : List (Int × Int × α)) (hv : ∀ e ∈ l, F.Reads e.2.2 (g e.2.2) ∧ G.RoundTrips (g e.2.2)) :
    readMtx F (some (mtxFile F hs r c z l)) = readMtx G (some (mtxFile G hs r c z (l.map (fun e => (e.1, e.2.1, g e.2.2))))) := by
  unfold readMtx openIn mtxFile
  simp only [ok_bind]
  obtain ⟨s1, s2⟩ := sizeLine_facts r c z
  have hl := length_lines (fun h : Text => h) hs
  rw [mtxHeader_lines hs hc _ _ s1 s2 _ (by simp only [List.length_append] at *; omega),
    mtxHeader_lines hs hc _ _ s1 s2 _ (by simp only [List.length_append] at *; omega)]
  simp only
  rw [step3_list_reads F g l (fun e he => (hv e he).1), step3_mtx G _ (by
    intro e he
    obtain ⟨d, hd, rfl⟩ := List.mem_map.1 he
    exact (hv d hd).2)]

theorem writeMtx_eq {R : Type} (F : Fmt R) (A : Csr R) (hA : A.WF) :
    writeMtx F A true = .ok (mtxFile F ["%MatrixMarket matrix coordinate real general".toList] A.rows A.cols A.nnz
      ((entries A).map (fun e => (e.1 + 1, e.2.1 + 1, e.2.2)))) := by
  unfold writeMtx openOut
  rw [if_pos rfl, ok_bind, writeEntries_eq hA false _ (fun e => showInt (e.1 + 1) ++ [' '] ++ showInt (e.2.1 + 1) ++ [' ']
    ++ F.put e.2.2 ++ ['\n']) (by intro i c k v hv; rw [hv, ok_bind]), ok_bind]
  unfold mtxFile
  have : (entries A).filter (fun e => decide (false = false ∨ e.2.1 ≥ e.1)) = entries A := by
    apply List.filter_eq_self.mpr; intro e _; simp
  rw [this]
  congr 1
  rw [List.flatMap_map]
  have ht : mtxTitle = ["%MatrixMarket matrix coordinate real general".toList].flatMap (fun h => h ++ ['\n']) := by
    decide +kernel
  rw [ht]
  simp only [List.append_assoc, List.cons_append, List.nil_append]

theorem mtx_reads {R : Type} [AddCommMonoid R] (F G : Fmt R) (g : R → R) (A : Csr R) (hA : A.WF)
    (h : ∀ x ∈ A.data, F.Reads x (g x) ∧ G.RoundTrips (g x)) :
    ∃ t B, writeMtx F A true = .ok t ∧ readMtx F (some t) = .ok B ∧ B.rows = A.rows ∧ B.cols = A.cols ∧ B.NoDup ∧
      ∀ i j, B.coef i j = ({ A with data := A.data.map g } : Csr R).coef i j := by
  obtain ⟨t, B, b1, b2, b3, b4, b5, b6, b7, b8⟩ := C52_roundTrip G { A with data := A.data.map g } (wf_mapData hA g) (by
    intro x hx
    obtain ⟨y, hy, rfl⟩ := List.mem_map.1 hx
    exact (h y hy).2)
  refine ⟨_, B, writeMtx_eq F A hA, ?_, b6, b7, b5, b8⟩
  rw [readMtx_reads F G g _ (by decide +kernel) _ _ _ _ (by
    intro e he
    obtain ⟨d, hd, rfl⟩ := List.mem_map.1 he
    exact h _ (mem_entries hA hd).2.2.2.2), ← b3, b2, entries_mapData]
  simp only [List.map_map]
  have : ({ A with data := A.data.map g } : Csr R).nnz = A.nnz := by simp [Csr.nnz]
  rw [this]
  rfl

theorem coo_reads {R : Type} [AddCommMonoid R] (F G : Fmt R) (g : R → R) (A : Csr R) (hA : A.WF)
    (h : ∀ x ∈ A.data, F.Reads x (g x) ∧ G.RoundTrips (g x)) :
    ∃ t B, writeCooList F A false true = .ok t ∧ readCooList F (some t) false = .ok B ∧ B.NoDup ∧
      ∀ i j, B.coef i j = ({ A with data := A.data.map g } : Csr R).coef i j := by
  obtain ⟨t, B, b1, b2, b3, b4, b5, _⟩ := C53_coo G { A with data := A.data.map g } (wf_mapData hA g) (by
    intro x hx
    obtain ⟨y, hy, rfl⟩ := List.mem_map.1 hx
    exact (h y hy).2)
  refine ⟨_, B, writeCooList_eq F hA false, ?_, b4, b5⟩
  rw [writeCooList_eq G (wf_mapData hA g), entries_mapData, Except.ok.injEq] at b1
  rw [← b2, ← b1]
  have fl : ∀ l : List (Int × Int × R), l.filter (fun e => decide (false = false ∨ e.2.1 ≥ e.1)) = l := by
    intro l
    apply List.filter_eq_self.mpr; intro e _; simp
  rw [fl, fl]
  unfold readCooList openIn
  simp only [ok_bind]
  rw [step3_list_reads F g _ (fun e he => (h _ (mem_entries hA he).2.2.2.2).1), step3_mtx G _ (by
    intro e he
    obtain ⟨d, hd, rfl⟩ := List.mem_map.1 he
    exact (h _ (mem_entries hA hd).2.2.2.2).2)]

/-- What a value becomes in a file with `p` digits. -/
theorem exists_back (p : Nat) (hp : 1 ≤ p) : ∃ g : ℚ → ℚ, ∀ x, IsDouble x → |x| ≤ 10 ^ 308 →
    Rounded p x (g x) ∧ |g x - x| ≤ |x| * 10 ^ (1 - (p : Int)) ∧ (ratFmt p).Reads x (g x) ∧ (ratFmt 17).RoundTrips (g x) := by
  classical
  refine ⟨fun x => if h : IsDouble x ∧ |x| ≤ 10 ^ 308 then (C113_written p hp x h.1 h.2).choose else x, fun x h1 h2 => ?_⟩
  simp only [dif_pos (show IsDouble x ∧ |x| ≤ 10 ^ 308 from ⟨h1, h2⟩)]
  obtain ⟨a, b⟩ := (C113_written p hp x h1 h2).choose_spec
  have e := C113_error p hp x _ h1 b
  exact ⟨a, e.2, b, C113_seventeen 17 le_rfl _ e.1⟩

theorem dbl_reads {p : Nat} {x y : ℚ} (h : (ratFmt p).Reads x y) : (dblFmt p).Reads (.fin x) (.fin y) :=
  ⟨h.first, fun r hr => by
    have : scanRat (generalText p x ++ r) = _ := h.back r hr
    show ((scanRat (generalText p x ++ r)).1.map Dbl.fin, (scanRat (generalText p x ++ r)).2) = _
    rw [this]; rfl⟩

/-- A function on numbers, for all values. -/
def liftDbl (g : ℚ → ℚ) : Dbl → Dbl
  | .fin q => .fin (g q)
  | d => d

/-- **C113** `ReadText` after `WriteText`: as many values, and each is the one written rounded to 16 decimal digits and back, so that the relative error is
at most `1e-15`. -/
theorem C113_text (v : List ℚ) (hv : ∀ x ∈ v, IsDouble x ∧ |x| ≤ 10 ^ 308) :
    ∃ t w, writeTextDbl (v.map .fin) true = .ok t ∧ readTextDbl (some t) = .ok (w.map .fin) ∧
      List.Forall₂ (fun x y => Rounded 16 x y ∧ |y - x| ≤ |x| * 10 ^ (-15 : Int)) v w := by
  obtain ⟨g, hg⟩ := exists_back 16 (by norm_num)
  obtain ⟨t, h1, h2⟩ := text_reads (dblFmt 16) (liftDbl g) (v.map .fin) (by
    intro d hd
    obtain ⟨x, hx, rfl⟩ := List.mem_map.1 hd
    exact dbl_reads (hg x (hv x hx).1 (hv x hx).2).2.2.1)
  refine ⟨t, v.map g, h1, ?_, ?_⟩
  · have : (v.map Dbl.fin).map (liftDbl g) = (v.map g).map Dbl.fin := by rw [List.map_map, List.map_map]; rfl
    rw [← this]; exact h2
  · rw [List.forall₂_map_right_iff]
    exact List.forall₂_same.2 (fun x hx => ⟨(hg x (hv x hx).1 (hv x hx).2).1, by simpa using (hg x (hv x hx).1 (hv x hx).2).2.1⟩)

/-- **C113** `ReadCSR` after `WriteCSR`: the same arrays, but each value rounded to 16 decimal digits and back. -/
theorem C113_csr (A : Csr ℚ) (hA : A.WF) (hv : ∀ x ∈ A.data, IsDouble x ∧ |x| ≤ 10 ^ 308) :
    ∃ t w, writeCsrDbl ⟨A.rows, A.cols, A.indptr, A.indices, A.data.map .fin⟩ true = .ok t ∧
      readCsrDbl (some t) = .ok ⟨A.rows, A.cols, A.indptr, A.indices, w.map .fin⟩ ∧
      List.Forall₂ (fun x y => Rounded 16 x y ∧ |y - x| ≤ |x| * 10 ^ (-15 : Int)) A.data w := by
  obtain ⟨g, hg⟩ := exists_back 16 (by norm_num)
  have hA' : (⟨A.rows, A.cols, A.indptr, A.indices, A.data.map .fin⟩ : Csr Dbl).WF :=
    ⟨hA.rows_nonneg, hA.cols_nonneg, hA.indptr_len, hA.indptr_first, hA.indptr_mono, by simpa using hA.indptr_last, by simpa using hA.indices_len,
      hA.cols_ok⟩
  obtain ⟨t, h1, h2⟩ := csr_reads (dblFmt 16) (liftDbl g) _ hA' (by
    intro d hd
    obtain ⟨x, hx, rfl⟩ := List.mem_map.1 hd
    exact dbl_reads (hg x (hv x hx).1 (hv x hx).2).2.2.1)
  refine ⟨t, A.data.map g, h1, ?_, ?_⟩
  · have : (A.data.map Dbl.fin).map (liftDbl g) = (A.data.map g).map Dbl.fin := by rw [List.map_map, List.map_map]; rfl
    rw [← this]; exact h2
  · rw [List.forall₂_map_right_iff]
    exact List.forall₂_same.2 (fun x hx => ⟨(hg x (hv x hx).1 (hv x hx).2).1, by simpa using (hg x (hv x hx).1 (hv x hx).2).2.1⟩)

/-- **C113** `ReadMTX` after `WriteMTX`: the coefficients of the matrix whose stored values are those written, rounded to 16 decimal digits and back. -/
theorem C113_mtx (A : Csr ℚ) (hA : A.WF) (hv : ∀ x ∈ A.data, IsDouble x ∧ |x| ≤ 10 ^ 308) :
    ∃ t B w, writeMtxDbl A true = .ok t ∧ readMtxDbl (some t) = .ok B ∧ B.rows = A.rows ∧ B.cols = A.cols ∧
      List.Forall₂ (fun x y => Rounded 16 x y ∧ |y - x| ≤ |x| * 10 ^ (-15 : Int)) A.data w ∧
      ∀ i j, B.coef i j = ({ A with data := w } : Csr ℚ).coef i j := by
  obtain ⟨g, hg⟩ := exists_back 16 (by norm_num)
  obtain ⟨t, B, h1, h2, h3, h4, _, h5⟩ := mtx_reads (ratFmt 16) (ratFmt 17) g A hA
    (fun x hx => ⟨(hg x (hv x hx).1 (hv x hx).2).2.2.1, (hg x (hv x hx).1 (hv x hx).2).2.2.2⟩)
  refine ⟨t, B, A.data.map g, h1, h2, h3, h4, ?_, h5⟩
  rw [List.forall₂_map_right_iff]
  exact List.forall₂_same.2 (fun x hx => ⟨(hg x (hv x hx).1 (hv x hx).2).1, by simpa using (hg x (hv x hx).1 (hv x hx).2).2.1⟩)

/-- **C113** `ReadCooList` after `WriteCooList`: the same with 6 digits, so that the relative error can be `1e-5`. -/
theorem C113_coo (A : Csr ℚ) (hA : A.WF) (hv : ∀ x ∈ A.data, IsDouble x ∧ |x| ≤ 10 ^ 308) :
    ∃ t B w, writeCooListDbl A false true = .ok t ∧ readCooListDbl (some t) false = .ok B ∧
      List.Forall₂ (fun x y => Rounded 6 x y ∧ |y - x| ≤ |x| * 10 ^ (-5 : Int)) A.data w ∧
      ∀ i j, B.coef i j = ({ A with data := w } : Csr ℚ).coef i j := by
  obtain ⟨g, hg⟩ := exists_back 6 (by norm_num)
  obtain ⟨t, B, h1, h2, _, h5⟩ := coo_reads (ratFmt 6) (ratFmt 17) g A hA
    (fun x hx => ⟨(hg x (hv x hx).1 (hv x hx).2).2.2.1, (hg x (hv x hx).1 (hv x hx).2).2.2.2⟩)
  refine ⟨t, B, A.data.map g, h1, h2, ?_, h5⟩
  rw [List.forall₂_map_right_iff]
  exact List.forall₂_same.2 (fun x hx => ⟨(hg x (hv x hx).1 (hv x hx).2).1, by simpa using (hg x (hv x hx).1 (hv x hx).2).2.1⟩)

/-- **C113** Negation: a matrix with an integer value that `ReadCooList` does not get back from the file of `WriteCooList`; from that of `WriteMTX` it is. -/
theorem C113_coo_false : ∃ A : Csr ℚ, A.WF ∧ A.data = [1234567] ∧
    writeCooListDbl A false true = .ok "0 0 1.23457e+06\n".toList ∧
    readCooListDbl (some "0 0 1.23457e+06\n".toList) false = .ok ⟨1, 1, [0, 1], [0], [1234570]⟩ ∧
    ∃ t, writeMtxDbl A true = .ok t ∧ readMtxDbl (some t) = .ok A :=
  ⟨⟨1, 1, [0, 1], [0], [1234567]⟩, by decide, rfl, by decide +kernel, by decide +kernel, _, rfl, by decide +kernel⟩

theorem digits_word {t : Text} (h : ∀ c ∈ t, isDigit c = true) : Word t :=
  ⟨fun hc => by have := h _ hc; revert this; decide, fun hc => by have := h _ hc; revert this; decide⟩

theorem word_append {a b : Text} (ha : Word a) (hb : Word b) : Word (a ++ b) :=
  ⟨by simp [ha.1, hb.1], by simp [ha.2, hb.2]⟩

theorem withFrac_word {a b : Text} (ha : ∀ c ∈ a, isDigit c = true) (hb : ∀ c ∈ b, isDigit c = true) : Word (withFrac a b) := by
  unfold withFrac
  refine word_append (digits_word ha) ?_
  split
  · exact ⟨by simp, by simp⟩
  · exact word_append (a := ['.']) ⟨by decide, by decide⟩ (digits_word (stripZeros_digits hb))

/-- **C113** What is written has no space and no newline in it, so that C110 tells what the `Print` functions show of `double` values. -/
theorem C113_word (p : Nat) (q : ℚ) : Word (generalText p q) := by
  have hs : ∀ p n x, Word (sciText p n x) := by
    intro p n x
    have hd := lastDigits_digit p n
    have ht : ∀ k, ∀ c ∈ (lastDigits p n).take k, isDigit c = true := fun k c hc => hd c (List.mem_of_mem_take hc)
    have hdr : ∀ k, ∀ c ∈ (lastDigits p n).drop k, isDigit c = true := fun k c hc => hd c (List.mem_of_mem_drop hc)
    unfold sciText
    simp only
    split
    · refine word_append (withFrac_word (ht _) (hdr _)) ?_
      unfold expText
      refine word_append (a := ['e', if x < 0 then '-' else '+']) ?_ (digits_word (expDigits x).1)
      split <;> exact ⟨by decide, by decide⟩
    · split
      · refine withFrac_word (by intro c hc; simp at hc; subst hc; decide) ?_
        intro c hc
        rcases List.mem_append.1 hc with hc | hc
        · rw [(List.mem_replicate.1 hc).2]; decide
        · exact hd c hc
      · exact withFrac_word (ht _) (hdr _)
  unfold generalText
  simp only
  split
  · exact ⟨by decide, by decide⟩
  · refine word_append ?_ (hs _ _ _)
    split <;> exact ⟨by decide, by decide⟩

/-- **C113** Two values with the same text differ by no more than the digits that were not written. -/
theorem C113_same_text (p : Nat) (hp : 1 ≤ p) (x y : ℚ) (hx : IsDouble x) (hy : IsDouble y) (hb : |x| ≤ 10 ^ 308) (h : generalText p x = generalText p y) :
    |x - y| ≤ (|x| + |y|) * 10 ^ (1 - (p : Int)) := by
  obtain ⟨w, _, hw⟩ := C113_written p hp x hx hb
  have hw' : (ratFmt p).Reads y w := ⟨by show ∃ c r, generalText p y = _ ∧ _; rw [← h]; exact hw.first,
    fun r hr => by show scanRat (generalText p y ++ r) = _; rw [← h]; exact hw.back r hr⟩
  have e1 := (C113_error p hp x w hx hw).2
  have e2 := (C113_error p hp y w hy hw').2
  have tri := abs_add_le (x - w) (w - y)
  rw [sub_add_sub_cancel, abs_sub_comm x w] at tri
  have : (|x| + |y|) * 10 ^ (1 - (p : Int)) = |x| * 10 ^ (1 - (p : Int)) + |y| * 10 ^ (1 - (p : Int)) := by ring
  rw [this]
  exact le_trans tri (add_le_add e1 e2)

theorem same_texts : ∀ a b : List ℚ, (∀ x ∈ a, IsDouble x ∧ |x| ≤ 10 ^ 308) → (∀ x ∈ b, IsDouble x) → a.map (generalText 6) = b.map (generalText 6) →
    List.Forall₂ (fun x y => |x - y| ≤ (|x| + |y|) * 10 ^ (-5 : Int)) a b
  | [], [], _, _, _ => .nil
  | [], _ :: _, _, _, h => by simp at h
  | _ :: _, [], _, _, h => by simp at h
  | x :: a, y :: b, ha, hb, h => by
      simp only [List.map_cons, List.cons.injEq] at h
      refine .cons ?_ (same_texts a b (fun z hz => ha z (by simp [hz])) (fun z hz => hb z (by simp [hz])) h.2)
      have hx := ha x (by simp)
      simpa using C113_same_text 6 (by norm_num) x y hx.1 (hb y (by simp)) hx.2 h.1

/-- **C113** What `Print` of a sparse matrix of `double` shows: if two matrices of one shape look the same, they have their entries in the same places, and
the values agree to 6 digits. -/
theorem C113_print (A B : Csr ℚ) (hA : A.WF) (hB : B.WF) (hr : A.rows = B.rows) (hc : A.cols = B.cols)
    (vA : ∀ x ∈ A.data, IsDouble x ∧ |x| ≤ 10 ^ 308) (vB : ∀ x ∈ B.data, IsDouble x)
    (h : A.print (fun fl q => generalText fl.precision.toNat q) [] OStream.new = B.print (fun fl q => generalText fl.precision.toNat q) [] OStream.new) :
    A.indptr = B.indptr ∧ A.indices = B.indices ∧ List.Forall₂ (fun x y => |x - y| ≤ (|x| + |y|) * 10 ^ (-5 : Int)) A.data B.data := by
  obtain ⟨h1, h2, h3⟩ := C110_sparse_determines _ A B hA hB hr hc [] OStream.new (fun v _ => C113_word _ v) (fun v _ => C113_word _ v) h
  refine ⟨h1, h2, ?_⟩
  exact same_texts A.data B.data vA vB h3

theorem withFrac_plain {a b : Text} (ha : ∀ c ∈ a, isDigit c = true) (hb : ∀ c ∈ b, isDigit c = true) : 'e' ∉ withFrac a b := by
  have h0 : ∀ {t : Text}, (∀ c ∈ t, isDigit c = true) → 'e' ∉ t := fun h hc => by have := h _ hc; revert this; decide
  unfold withFrac
  intro hc
  rcases List.mem_append.1 hc with hc | hc
  · exact h0 ha hc
  · split at hc
    · simp at hc
    · rcases List.mem_cons.1 hc with hc | hc
      · revert hc; decide
      · exact h0 (stripZeros_digits hb) hc

theorem sciText_plain (p n : Nat) (x : Int) : 'e' ∈ sciText p n x ↔ x < -4 ∨ (p : Int) ≤ x := by
  have hd := lastDigits_digit p n
  have ht : ∀ k, ∀ c ∈ (lastDigits p n).take k, isDigit c = true := fun k c hc => hd c (List.mem_of_mem_take hc)
  have hdr : ∀ k, ∀ c ∈ (lastDigits p n).drop k, isDigit c = true := fun k c hc => hd c (List.mem_of_mem_drop hc)
  constructor
  · intro h
    by_contra hx
    unfold sciText at h
    simp only [if_neg hx] at h
    split at h
    · refine withFrac_plain (fun c hc => ?_) (fun c hc => ?_) h
      · obtain rfl : c = '0' := by simpa using hc
        decide
      · rcases List.mem_append.1 hc with hc | hc
        · rw [(List.mem_replicate.1 hc).2]; decide
        · exact hd c hc
    · exact withFrac_plain (ht _) (hdr _) h
  · intro hx
    unfold sciText
    simp only [if_pos hx]
    exact List.mem_append.2 (Or.inr (by unfold expText; exact List.mem_cons_self))

/-- **C113** Which notation is used, with `p` digits: an exponent is written for numbers from `10 ^ p` on and for those up to `0.00009`, but not for those from
`0.0001` to `10 ^ p - 1` (in between it depends on how they are rounded). -/
theorem C113_notation (p : Nat) (hp : 1 ≤ p) (q : ℚ) (hq : q ≠ 0) :
    (|q| ≤ 9 / 10 ^ 5 ∨ 10 ^ p ≤ |q| → 'e' ∈ generalText p q) ∧ (1 / 10 ^ 4 ≤ |q| → |q| ≤ 10 ^ p - 1 → 'e' ∉ generalText p q) := by
  have h0 : 0 < |q| := abs_pos.2 hq
  have hg : 'e' ∈ generalText p q ↔ (sci p |q|).2 < -4 ∨ (p : Int) ≤ (sci p |q|).2 := by
    rw [← sciText_plain p (sci p |q|).1]
    unfold generalText
    simp only [if_neg (show ¬ p = 0 by omega), if_neg hq]
    split <;> simp
  rw [hg]
  have l1 : (10 : ℚ) ^ Int.log 10 |q| ≤ |q| := by simpa using Int.zpow_log_le_self (b := 10) (by norm_num) h0
  have l2 : |q| < (10 : ℚ) ^ (Int.log 10 |q| + 1) := by simpa using Int.lt_zpow_succ_log_self (b := 10) (by norm_num) |q|
  have lp := log_place hp h0
  have hx : (sci p |q|).2 = if roundEven (|q| / 10 ^ (Int.log 10 |q| - (p - 1))) = 10 ^ p then Int.log 10 |q| + 1 else Int.log 10 |q| := by
    unfold sci
    simp only
    split <;> rfl
  rw [hx]
  generalize Int.log 10 |q| = k at *
  have u0 : (0 : ℚ) < 10 ^ (k - (p - 1)) := zpow_pos (by norm_num) _
  have w0 : (0 : ℚ) ≤ |q| / 10 ^ (k - (p - 1)) := by positivity
  have mono : ∀ {a b : Int}, (10 : ℚ) ^ a < 10 ^ b → a < b := fun h => (zpow_lt_zpow_iff_right₀ (by norm_num)).1 h
  constructor
  · rintro (h | h)
    · left
      have k5 : k < -4 := mono (lt_of_le_of_lt (le_trans l1 h) (by norm_num))
      split
      · rename_i hr
        by_contra hk
        obtain rfl : k = -5 := by omega
        have : roundEven (|q| / 10 ^ ((-5 : Int) - (p - 1))) ≤ 9 * 10 ^ (p - 1) := by
          refine (roundEven_mono_nat w0).2 ?_
          rw [div_le_iff₀ u0]
          push_cast
          rw [← zpow_natCast, mul_assoc, ← zpow_add₀ (by norm_num), show (((p - 1 : Nat) : Int) + (-5 - (p - 1))) = -5 by omega]
          refine le_trans h (by norm_num)
        have e : 10 ^ p = 10 * 10 ^ (p - 1) := by rw [← Nat.pow_succ']; congr 1; omega
        have : 0 < 10 ^ (p - 1) := Nat.pow_pos (by norm_num)
        omega
      · exact k5
    · right
      have kp : (p : Int) < k + 1 := mono (by rw [zpow_natCast]; exact lt_of_le_of_lt h l2)
      split <;> omega
  · intro h h'
    have k4 : (-4 : Int) < k + 1 := mono (lt_of_le_of_lt (le_trans (by norm_num) h) l2)
    have kp : k < p := mono (by rw [zpow_natCast]; linarith)
    split
    · rename_i hr
      intro hc
      obtain rfl : k = p - 1 := by omega
      have : roundEven (|q| / 10 ^ ((p : Int) - 1 - (p - 1))) ≤ 10 ^ p - 1 := by
        refine (roundEven_mono_nat w0).2 ?_
        rw [sub_self, zpow_zero, div_one, Nat.cast_sub (Nat.one_le_pow _ _ (by norm_num))]
        push_cast
        exact h'
      have : 0 < 10 ^ p := Nat.pow_pos (by norm_num)
      omega
    · omega

/-- C113: both cases occur, on both sides. -/
example : 'e' ∈ generalText 6 (-1 / 20000) ∧ 'e' ∈ generalText 6 1000000 ∧ 'e' ∉ generalText 6 (1 / 10000) ∧ 'e' ∉ generalText 6 (-999999) :=
  ⟨(C113_notation 6 (by norm_num) _ (by norm_num)).1 (Or.inl (by norm_num [abs_of_neg])), (C113_notation 6 (by norm_num) _ (by norm_num)).1 (Or.inr (by norm_num)),
    (C113_notation 6 (by norm_num) _ (by norm_num)).2 (by norm_num) (by norm_num), (C113_notation 6 (by norm_num) _ (by norm_num)).2 (by norm_num) (by norm_num)⟩

/-- C113: numbers in both notations, and what is read. -/
example : generalText 6 (1 / 10000) = "0.0001".toList ∧ generalText 6 (-1 / 100000) = "-1e-05".toList ∧ generalText 6 999999 = "999999".toList ∧
    generalText 6 (19999999 / 20) = "1e+06".toList ∧ generalText 16 (1 / 3) = "0.3333333333333333".toList ∧ generalText 6 (250 : ℚ) = "250".toList ∧
    scanRat "-2.5e-1x".toList = (some (-1 / 4), ['x']) ∧ scanRat ".5".toList = (some (1 / 2), []) ∧ scanRat "1e".toList = (none, []) ∧
    scanRat "inf".toList = (none, "inf".toList) ∧ scanRat "1e400".toList = (none, []) ∧ scanRat "1e-400".toList = (some 0, []) := by decide +kernel

/-- C113: values that meet the hypotheses: the one after `1e23`, the smallest one, a negative one. -/
example : (IsDouble (5960464477539063 * 2 ^ 24) ∧ |(5960464477539063 * 2 ^ 24 : ℚ)| ≤ 10 ^ 308) ∧ IsDouble (1 / 2 ^ 1074) ∧
    (IsDouble (-3 / 8) ∧ IsDec 3 (-3 / 8)) :=
  ⟨⟨⟨5960464477539063, 24, by norm_num, by norm_num, by norm_num, by norm_num⟩, by decide +kernel⟩,
    ⟨1, -1074, by rw [zpow_neg]; simp only [Int.cast_one, one_mul, one_div]; rfl, by norm_num, by norm_num, by norm_num⟩,
    ⟨-3, -3, by norm_num, by norm_num, by norm_num, by norm_num⟩, ⟨-375, -3, by norm_num, by norm_num⟩⟩

end Io
end Linalg
