import Verif.Spec.Print
import Verif.Proof.Io
import Verif.Proof.Lil
import Verif.Proof.Block
import Mathlib.Tactic.Linarith
import Mathlib.Tactic.FieldSimp
import Mathlib.Tactic.Positivity

/-! # Formatted output: helper lemmas -/

namespace Linalg
open Cpp Io

namespace Print
variable {α β : Type}

@[simp] theorem pad_zero (l : Bool) (t : Text) : pad l 0 t = t := by
  cases l <;> simp [pad]

theorem put_eq (out : OStream) (t : Text) : out.put t = out.wrote (out.field t) := rfl

@[simp] theorem put_mk (T t : Text) (fl : Flags) : (⟨T, 0, fl⟩ : OStream).put t = ⟨T ++ t, 0, fl⟩ := by simp [OStream.put]

@[simp] theorem val_mk (T : Text) (fl : Flags) (F : Show α) (v : α) : (⟨T, 0, fl⟩ : OStream).val F v = ⟨T ++ F fl v, 0, fl⟩ := by
  simp [OStream.val]

@[simp] theorem setw_val (T : Text) (w w' : Int) (fl : Flags) (F : Show α) (v : α) :
    ((⟨T, w, fl⟩ : OStream).setw w').val F v = ⟨T ++ pad fl.left w' (F fl v), 0, fl⟩ := by
  simp [OStream.val, OStream.setw, OStream.put]

@[simp] theorem setw_put (T t : Text) (w w' : Int) (fl : Flags) :
    ((⟨T, w, fl⟩ : OStream).setw w').put t = ⟨T ++ pad fl.left w' t, 0, fl⟩ := by
  simp [OStream.setw, OStream.put]

/-- Writing for each element of a list. -/
theorem foldl_write (fl : Flags) (f : OStream → β → OStream) (g : β → Text) (h : ∀ T b, f ⟨T, 0, fl⟩ b = ⟨T ++ g b, 0, fl⟩) (l : List β) (T : Text) :
    l.foldl f ⟨T, 0, fl⟩ = ⟨T ++ l.flatMap g, 0, fl⟩ := by
  induction l generalizing T with
  | nil => simp
  | cons b l ih => rw [List.foldl_cons, h, ih]; simp

theorem foldlM_write (fl : Flags) (f : OStream → β → Res OStream) (g : β → Text) (l : List β) (h : ∀ T, ∀ b ∈ l, f ⟨T, 0, fl⟩ b = .ok ⟨T ++ g b, 0, fl⟩) (T : Text) :
    l.foldlM f ⟨T, 0, fl⟩ = .ok ⟨T ++ l.flatMap g, 0, fl⟩ := by
  induction l generalizing T with
  | nil => simp [pure_eq_ok]
  | cons b l ih => rw [List.foldlM_cons, h _ _ (by simp), ok_bind, ih (fun T b hb => h T b (by simp [hb]))]; simp

theorem forUp_write (fl : Flags) (n : Nat) (f : Int → OStream → Res OStream) (g : Nat → Text)
    (h : ∀ T (k : Nat), k < n → f k ⟨T, 0, fl⟩ = .ok ⟨T ++ g k, 0, fl⟩) (T : Text) :
    forUp 0 (n : Int) ⟨T, 0, fl⟩ f = .ok ⟨T ++ (List.range n).flatMap g, 0, fl⟩ := by
  rw [forUp_zero_eq_foldlM, foldlM_write fl _ g]
  intro T k hk
  exact h T k (List.mem_range.mp hk)

/-- Writing when the formatting state may change, but not the adjustment. -/
theorem forUp_write' (n : Nat) (f : Int → OStream → Res OStream) (g : Nat → Text)
    (h : ∀ T fl (k : Nat), k < n → fl.left = false → ∃ fl', fl'.left = false ∧ f k ⟨T, 0, fl⟩ = .ok ⟨T ++ g k, 0, fl'⟩) (T : Text) (fl : Flags) (hfl : fl.left = false) :
    ∃ fl', fl'.left = false ∧ forUp 0 (n : Int) ⟨T, 0, fl⟩ f = .ok ⟨T ++ (List.range n).flatMap g, 0, fl'⟩ := by
  induction n with
  | zero => exact ⟨fl, hfl, by simp [forUp_nil]⟩
  | succ n ih =>
    obtain ⟨fl1, h1, h2⟩ := ih (fun T fl k hk => h T fl k (by omega))
    obtain ⟨fl2, h3, h4⟩ := h (T ++ (List.range n).flatMap g) fl1 n (by omega) h1
    refine ⟨fl2, h3, ?_⟩
    rw [forUp_zero_eq_foldlM] at h2 ⊢
    rw [List.range_succ, List.foldlM_append, h2, ok_bind, List.foldlM_cons, h4]
    simp [pure_eq_ok]

/-! ## Text that can be taken apart -/

/-- What comes before the first `c` and what comes after it. -/
theorem split_first {c : Char} {a b r s : Text} (ha : c ∉ a) (hb : c ∉ b) (h : a ++ c :: r = b ++ c :: s) : a = b ∧ r = s := by
  induction a generalizing b with
  | nil =>
    cases b with
    | nil => simpa using h
    | cons x b => simp at h; simp [h.1] at hb
  | cons x a ih =>
    cases b with
    | nil => simp at h; simp [h.1] at ha
    | cons y b =>
      simp only [List.cons_append, List.cons.injEq] at h
      simp only [List.mem_cons, not_or] at ha hb
      obtain ⟨e1, e2⟩ := ih ha.2 hb.2 h.2
      exact ⟨by rw [h.1, e1], e2⟩

theorem lines_inj {ls ms : List Text} (hl : ∀ l ∈ ls, '\n' ∉ l) (hm : ∀ l ∈ ms, '\n' ∉ l) (h : lines ls = lines ms) : ls = ms := by
  induction ls generalizing ms with
  | nil =>
    cases ms with
    | nil => rfl
    | cons m ms => simp [lines] at h
  | cons l ls ih =>
    cases ms with
    | nil => simp [lines] at h
    | cons m ms =>
      simp only [lines, List.flatMap_cons, List.append_assoc, List.singleton_append] at h
      obtain ⟨e1, e2⟩ := split_first (hl l (by simp)) (hm m (by simp)) h
      rw [e1, ih (fun x hx => hl x (by simp [hx])) (fun x hx => hm x (by simp [hx])) e2]

theorem showInt_inj {i j : Int} (h : showInt i = showInt j) : i = j := by
  have e1 := (intFmt_roundTrips i).back [] (Or.inl rfl)
  have e2 := (intFmt_roundTrips j).back [] (Or.inl rfl)
  have e3 : intFmt.put i = intFmt.put j := h
  rw [e3, e2] at e1
  simpa using e1.symm

theorem not_mem_showNat {c : Char} (h1 : isDigit c = false) (n : Nat) : c ∉ showNat n := by
  obtain ⟨h, _⟩ := showNatAux_spec (n + 1) n (by omega)
  intro hc
  rw [h c hc] at h1
  cases h1

theorem not_mem_showInt {c : Char} (h1 : isDigit c = false) (h2 : c ≠ '-') (i : Int) : c ∉ showInt i := by
  have := not_mem_showNat h1 i.natAbs
  unfold showInt
  split
  · simp [h2, this]
  · exact this

theorem pad_inj {l : Bool} {w : Int} {t u : Text} (ht : ' ' ∉ t) (hu : ' ' ∉ u) (h : pad l w t = pad l w u) : t = u := by
  have key : ∀ v : Text, ' ' ∉ v → (pad l w v).filter (fun c => c ≠ ' ') = v := by
    intro v hv
    have e : v.filter (fun c => c ≠ ' ') = v := List.filter_eq_self.mpr (fun c hc => by simp; rintro rfl; exact hv hc)
    have e2 : ∀ n, (List.replicate n ' ').filter (fun c => c ≠ ' ') = [] := fun n => List.filter_eq_nil_iff.mpr (fun c hc => by simp [List.eq_of_mem_replicate hc])
    cases l <;> simp only [pad, Bool.false_eq_true, if_false, if_true, List.filter_append, e, e2, List.nil_append, List.append_nil]
  rw [← key t ht, ← key u hu, h]

theorem not_mem_pad {c : Char} {l : Bool} {w : Int} {t : Text} (hc : c ≠ ' ') (ht : c ∉ t) : c ∉ pad l w t := by
  cases l <;> simp [pad, ht, hc]

theorem entryLine_inj {l : Bool} {w : Int} {e f : Int × Int × Text} (he : Word e.2.2) (hf : Word f.2.2) (h : entryLine l w e = entryLine l w f) :
    e = f := by
  simp only [entryLine, List.cons.injEq, true_and] at h
  obtain ⟨h1, h2⟩ := split_first (not_mem_showInt rfl (by decide) _) (not_mem_showInt rfl (by decide) _) h
  simp only [List.cons.injEq, true_and] at h2
  obtain ⟨h3, h4⟩ := split_first (not_mem_showInt rfl (by decide) _) (not_mem_showInt rfl (by decide) _) h2
  simp only [List.cons.injEq, true_and] at h4
  exact Prod.ext (showInt_inj h1) (Prod.ext (showInt_inj h3) (pad_inj he.1 hf.1 h4))

theorem nl_entryLine {l : Bool} {w : Int} {e : Int × Int × Text} (he : Word e.2.2) : '\n' ∉ entryLine l w e := by
  have h1 := nl_not_showInt e.1
  have h2 := nl_not_showInt e.2.1
  have h3 : '\n' ∉ pad l w e.2.2 := not_mem_pad (by decide) he.2
  simp [entryLine, h1, h2, h3]

theorem map_entryLine_inj {l : Bool} {w : Int} {es fs : List (Int × Int × Text)} (he : ∀ e ∈ es, Word e.2.2) (hf : ∀ e ∈ fs, Word e.2.2)
    (h : es.map (entryLine l w) = fs.map (entryLine l w)) : es = fs := by
  induction es generalizing fs with
  | nil => cases fs with
    | nil => rfl
    | cons f fs => simp at h
  | cons e es ih => cases fs with
    | nil => simp at h
    | cons f fs =>
      simp only [List.map_cons, List.cons.injEq] at h
      rw [entryLine_inj (he e (by simp)) (hf f (by simp)) h.1, ih (fun x hx => he x (by simp [hx])) (fun x hx => hf x (by simp [hx])) h.2]

/-- A text of entries, whatever follows it: the entries and what follows are determined. -/
theorem section_append_inj {l : Bool} {w : Int} {label : Text} {es fs : List (Int × Int × Text)} {r s : Text} (he : ∀ e ∈ es, Word e.2.2)
    (hf : ∀ e ∈ fs, Word e.2.2) (h : section_ l w label es ++ r = section_ l w label fs ++ s) : es = fs ∧ r = s := by
  simp only [section_, List.append_assoc, List.append_cancel_left_eq, List.cons_append, List.cons.injEq, true_and] at h
  induction es generalizing fs with
  | nil => cases fs with
    | nil => simpa [lines] using h
    | cons f fs => simp [lines, entryLine] at h
  | cons e es ih => cases fs with
    | nil => simp [lines, entryLine] at h
    | cons f fs =>
      simp only [lines, List.map_cons, List.cons_append, List.flatMap_cons, List.append_assoc, List.singleton_append] at h ih
      obtain ⟨h1, h2⟩ := split_first (nl_entryLine (he e (by simp))) (nl_entryLine (hf f (by simp))) h
      have h3 := entryLine_inj (he e (by simp)) (hf f (by simp)) h1
      obtain ⟨h4, h5⟩ := ih (fun x hx => he x (by simp [hx])) (fun x hx => hf x (by simp [hx])) h2
      exact ⟨by rw [h3, h4], h5⟩

theorem section_inj {l : Bool} {w : Int} {label : Text} {es fs : List (Int × Int × Text)} (he : ∀ e ∈ es, Word e.2.2)
    (hf : ∀ e ∈ fs, Word e.2.2) (h : section_ l w label es = section_ l w label fs) : es = fs :=
  (section_append_inj (r := []) (s := []) he hf (by simpa using h)).1

theorem flatMap_lines (f : β → Text) (l : List β) : l.flatMap (fun b => f b ++ ['\n']) = lines (l.map f) := by
  simp [lines, List.flatMap_map]

theorem lines_append (a b : List Text) : lines (a ++ b) = lines a ++ lines b := by simp [lines]

/-! ## Decimal texts -/

theorem roundEven_err {q : ℚ} (hq : 0 ≤ q) : |(roundEven q : ℚ) - q| ≤ 1 / 2 := by
  have h0 : 0 ≤ ⌊q⌋ := Int.floor_nonneg.mpr hq
  have h1 : ((⌊q⌋.toNat : ℕ) : ℚ) = (⌊q⌋ : ℚ) := by
    have : ((⌊q⌋.toNat : ℕ) : ℤ) = ⌊q⌋ := Int.toNat_of_nonneg h0
    exact_mod_cast this
  have h2 : (⌊q⌋ : ℚ) ≤ q := Int.floor_le q
  have h3 : q < ⌊q⌋ + 1 := Int.lt_floor_add_one q
  unfold roundEven
  simp only
  split_ifs with a b c <;> push_cast <;> rw [h1] at * <;> rw [abs_le] <;> constructor <;> linarith

theorem lastDigits_length (p n : Nat) : (lastDigits p n).length = p := by
  induction p generalizing n with
  | zero => rfl
  | succ p ih => simp [lastDigits, ih]

theorem lastDigits_digit (p n : Nat) : ∀ c ∈ lastDigits p n, isDigit c = true := by
  induction p generalizing n with
  | zero => simp [lastDigits]
  | succ p ih =>
    intro c hc
    rcases List.mem_append.mp hc with h | h
    · exact ih _ _ h
    · simp at h; subst h; exact (digit_facts (n % 10) (by omega)).1

theorem digitsVal_lastDigits (a : Text) (p n : Nat) : digitsVal (a ++ lastDigits p n) = digitsVal a * 10 ^ p + n % 10 ^ p := by
  induction p generalizing n with
  | zero => simp [lastDigits, Nat.mod_one]
  | succ p ih =>
    rw [lastDigits, ← List.append_assoc, digitsVal_append, ih, (digit_facts (n % 10) (by omega)).2.1, Nat.pow_succ', Nat.mod_mul]
    ring

/-- The number of digits that `fixedText` writes after the point. -/
def places (precision : Int) : Nat := if precision < 0 then 6 else precision.toNat

theorem fixedText_eq (precision : Int) (q : ℚ) : fixedText precision q =
    (if q < 0 then ['-'] else []) ++ showNat (roundEven (|q| * 10 ^ places precision) / 10 ^ places precision) ++
      (if places precision = 0 then [] else '.' :: lastDigits (places precision) (roundEven (|q| * 10 ^ places precision))) := rfl

theorem showNat_spec (n : Nat) : (∀ c ∈ showNat n, isDigit c = true) ∧ digitsVal (showNat n) = n ∧
    ∃ c r, showNat n = c :: r ∧ isSpace c = false ∧ c ≠ '-' ∧ c ≠ '+' := showNatAux_spec (n + 1) n (by omega)

theorem filter_digits {t : Text} (h : ∀ c ∈ t, isDigit c = true) : t.filter isDigit = t := List.filter_eq_self.mpr h

theorem dropWhile_noDot {a r : Text} (h : '.' ∉ a) : (a ++ r).dropWhile (fun c => decide (c ≠ '.')) = r.dropWhile (fun c => decide (c ≠ '.')) := by
  induction a with
  | nil => rfl
  | cons c a ih =>
    simp only [List.mem_cons, not_or] at h
    rw [List.cons_append, List.dropWhile_cons, if_pos (by simpa using fun e => h.1 e.symm), ih h.2]

/-- The text is the number, to half a unit of the last place. -/
theorem textVal_fixedText (precision : Int) (q : ℚ) : |textVal (fixedText precision q) - q| ≤ 1 / 2 / 10 ^ places precision := by
  rw [fixedText_eq]
  generalize places precision = p
  set n := roundEven (|q| * 10 ^ p) with hn
  obtain ⟨s1, s2, c, r, s3, _, s5, _⟩ := showNat_spec (n / 10 ^ p)
  have hp : (0 : ℚ) < 10 ^ p := by positivity
  have herr : |(n : ℚ) - |q| * 10 ^ p| ≤ 1 / 2 := roundEven_err (by positivity)
  -- the three parts of `textVal`
  have hhead : ((if q < 0 then ['-'] else []) ++ showNat (n / 10 ^ p) ++ (if p = 0 then [] else '.' :: lastDigits p n)).head? = some '-' ↔ q < 0 := by
    by_cases hq : q < 0
    · simp [hq]
    · simp [hq, s3, s5]
  have hdig : digitsVal (((if q < 0 then ['-'] else []) ++ showNat (n / 10 ^ p) ++ (if p = 0 then [] else '.' :: lastDigits p n)).filter isDigit) = n := by
    have e1 : (if q < 0 then ['-'] else []).filter isDigit = [] := by split <;> decide
    have e2 : (if p = 0 then [] else '.' :: lastDigits p n).filter isDigit = lastDigits p n := by
      by_cases h : p = 0
      · subst h; rfl
      · rw [if_neg h, List.filter_cons_of_neg (by decide), filter_digits (lastDigits_digit p n)]
    rw [List.filter_append, List.filter_append, e1, e2, filter_digits s1, List.nil_append, digitsVal_lastDigits, s2]
    exact Nat.div_add_mod' n (10 ^ p)
  have hfrac : ((((if q < 0 then ['-'] else []) ++ showNat (n / 10 ^ p) ++ (if p = 0 then [] else '.' :: lastDigits p n)).dropWhile
      (fun c => decide (c ≠ '.'))).drop 1).length = p := by
    have nd : '.' ∉ (if q < 0 then ['-'] else []) ++ showNat (n / 10 ^ p) := by
      have := not_mem_showNat (c := '.') rfl (n / 10 ^ p)
      split <;> simp [this]
    rw [dropWhile_noDot nd]
    by_cases h : p = 0
    · simp [h]
    · rw [if_neg h, List.dropWhile_cons, if_neg (by simp)]
      simp [lastDigits_length]
  unfold textVal
  rw [hdig, hfrac, ← abs_of_pos hp, ← abs_of_pos hp, le_div_iff₀ (by simp), ← abs_mul]
  simp only [abs_abs]
  have hmul : ∀ s : ℚ, (s * (n : ℚ) / |10 ^ p| - q) * |10 ^ p| = s * n - q * 10 ^ p := by
    intro s
    rw [abs_of_pos hp]
    field_simp
  rw [hmul]
  by_cases hq : q < 0
  · rw [if_pos (hhead.mpr hq)]
    rw [abs_of_neg hq] at herr
    rw [← abs_neg]
    have e : -(-1 * (n : ℚ) - q * 10 ^ p) = n - -q * 10 ^ p := by ring
    rw [e]
    exact herr
  · rw [if_neg (fun h => hq (hhead.mp h))]
    rw [abs_of_nonneg (not_lt.mp hq)] at herr
    simpa using herr

theorem fixedText_word (precision : Int) (q : ℚ) : Word (fixedText precision q) := by
  rw [fixedText_eq]
  generalize places precision = p
  generalize roundEven (|q| * 10 ^ p) = n
  have key : ∀ c : Char, isDigit c = false → c ≠ '-' → c ≠ '.' →
      c ∉ (if q < 0 then ['-'] else []) ++ showNat (n / 10 ^ p) ++ (if p = 0 then [] else '.' :: lastDigits p n) := by
    intro c h1 h2 h3
    have h4 := not_mem_showNat h1 (n / 10 ^ p)
    have h5 : c ∉ lastDigits p n := fun h => by rw [lastDigits_digit p n c h] at h1; cases h1
    split <;> split <;> simp [h2, h3, h4, h5]
  exact ⟨key ' ' rfl (by decide) (by decide), key '\n' rfl (by decide) (by decide)⟩

/-- With digits after the point, the text ends where they end. -/
theorem fixedText_split {precision : Int} (h : precision ≠ 0) (q : ℚ) :
    ∃ a d, fixedText precision q = a ++ '.' :: d ∧ '.' ∉ a ∧ d.length = places precision := by
  have hp : places precision ≠ 0 := by unfold places; split <;> omega
  rw [fixedText_eq, if_neg hp]
  refine ⟨_, _, rfl, ?_, lastDigits_length _ _⟩
  have := not_mem_showNat (c := '.') rfl (roundEven (|q| * 10 ^ places precision) / 10 ^ places precision)
  split <;> simp [this]

/-- Texts with a point and `p` characters after it, one after the other in fields of the same width, can be taken apart. -/
theorem fields_inj {w : Int} {p : Nat} {ts us : List Text} (hlen : ts.length = us.length)
    (ht : ∀ t ∈ ts, ' ' ∉ t ∧ ∃ a d, t = a ++ '.' :: d ∧ '.' ∉ a ∧ d.length = p)
    (hu : ∀ t ∈ us, ' ' ∉ t ∧ ∃ a d, t = a ++ '.' :: d ∧ '.' ∉ a ∧ d.length = p)
    (h : ts.flatMap (pad false w) = us.flatMap (pad false w)) : ts = us := by
  induction ts generalizing us with
  | nil => cases us with
    | nil => rfl
    | cons u us => simp at hlen
  | cons t ts ih => cases us with
    | nil => simp at hlen
    | cons u us =>
      obtain ⟨t0, a, d, rfl, ha, hd⟩ := ht t (by simp)
      obtain ⟨u0, b, e, rfl, hb, he⟩ := hu u (by simp)
      have hp : ∀ (x y : Text), pad false w (x ++ '.' :: y) = pad false (w - (1 + y.length)) x ++ '.' :: y := by
        intro x y
        simp only [pad, Bool.false_eq_true, if_false, List.length_append, List.length_cons, List.append_assoc]
        congr 2
        push_cast
        omega
      rw [List.flatMap_cons, List.flatMap_cons, hp, hp, List.append_assoc, List.append_assoc, List.cons_append, List.cons_append] at h
      obtain ⟨h1, h2⟩ := split_first (not_mem_pad (by decide) ha) (not_mem_pad (by decide) hb) h
      obtain ⟨h3, h4⟩ := List.append_inj h2 (by rw [hd, he])
      rw [hd, he] at h1
      have h5 := pad_inj (fun m => t0 (by simp [m])) (fun m => u0 (by simp [m])) h1
      rw [h5, h3, ih (by simpa using hlen) (fun x hx => ht x (by simp [hx])) (fun x hx => hu x (by simp [hx])) h4]

end Print
end Linalg
