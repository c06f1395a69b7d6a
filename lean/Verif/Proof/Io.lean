import Verif.Spec.Io
import Verif.Proof.Coo
import Verif.Props.Coo
import Verif.Proof.Filter
import Mathlib.Tactic.IntervalCases

/-! # Files: helper lemmas -/

namespace Linalg
open Cpp
namespace Io

variable {α β σ R : Type}

/-! ## White space -/

theorem AllSpace.nil : AllSpace [] := by intro c h; cases h
theorem AllSpace.nl : AllSpace ['\n'] := by intro c h; simp at h; subst h; rfl
theorem AllSpace.sp : AllSpace [' '] := by intro c h; simp at h; subst h; rfl

theorem ends_nil : Ends [] := Or.inl rfl
theorem ends_nl (r : Text) : Ends ('\n' :: r) := Or.inr ⟨_, _, rfl, rfl⟩
theorem ends_sp (r : Text) : Ends (' ' :: r) := Or.inr ⟨_, _, rfl, rfl⟩

theorem dropWhile_space {ws t : Text} (h : AllSpace ws) : (ws ++ t).dropWhile isSpace = t.dropWhile isSpace := by
  induction ws with
  | nil => rfl
  | cons c ws ih =>
    rw [List.cons_append, List.dropWhile_cons_of_pos (h c (by simp))]
    exact ih (fun x hx => h x (by simp [hx]))

/-! ## Extraction -/

theorem extract_put [Zero α] {F : Fmt α} {v : α} (h : F.RoundTrips v) {ws r : Text} (hw : AllSpace ws) (hr : Ends r)
    (x : Option α) : extract F ⟨ws ++ F.put v ++ r, false⟩ x = (some v, ⟨r, false⟩) := by
  obtain ⟨c, t, hc, hs⟩ := h.first
  have hb := h.back r hr
  unfold extract
  rw [List.append_assoc]
  simp only [dropWhile_space hw, Bool.false_eq_true, if_false]
  rw [hc] at hb ⊢
  rw [List.cons_append] at hb ⊢
  rw [List.dropWhile_cons_of_neg (by simp [hs])]
  simp only [hb]

theorem extract_space [Zero α] (F : Fmt α) {ws : Text} (hw : AllSpace ws) (x : Option α) :
    extract F ⟨ws, false⟩ x = (x, ⟨[], true⟩) := by
  have := dropWhile_space (t := []) hw
  rw [List.append_nil] at this
  unfold extract
  simp only [this, Bool.false_eq_true, if_false, List.dropWhile_nil]

theorem step1_put [Zero α] {F : Fmt α} {v : α} (h : F.RoundTrips v) {ws r : Text} (hw : AllSpace ws) (hr : Ends r) :
    step1 F ⟨ws ++ F.put v ++ r, false⟩ = some (v, ⟨r, false⟩) := by
  unfold step1
  simp only [extract_put h hw hr]
  rfl

theorem step1_space [Zero α] (F : Fmt α) {ws : Text} (hw : AllSpace ws) : step1 F ⟨ws, false⟩ = none := by
  unfold step1
  simp only [extract_space F hw]
  rfl

/-- Reading lines. -/
theorem readLoop_lines {step : IStream → Option (β × IStream)} (line : β → Text) (xs : List β)
    (h1 : ∀ x ∈ xs, ∀ ws r, AllSpace ws → Ends r → step ⟨ws ++ line x ++ r, false⟩ = some (x, ⟨r, false⟩))
    (h2 : ∀ ws, AllSpace ws → step ⟨ws, false⟩ = none) (fuel : Nat) (hf : xs.length < fuel) (ws : Text) (hw : AllSpace ws) :
    readLoop step fuel ⟨ws ++ xs.flatMap (fun x => line x ++ ['\n']), false⟩ = xs := by
  induction xs generalizing fuel ws with
  | nil =>
    obtain ⟨f, rfl⟩ : ∃ f, fuel = f + 1 := ⟨fuel - 1, by omega⟩
    simp only [readLoop, List.flatMap_nil, List.append_nil, h2 ws hw]
  | cons x xs ih =>
    simp only [List.length_cons] at hf
    obtain ⟨f, rfl⟩ : ∃ f, fuel = f + 1 := ⟨fuel - 1, by omega⟩
    have e : ws ++ (x :: xs).flatMap (fun x => line x ++ ['\n'])
        = ws ++ line x ++ ('\n' :: xs.flatMap (fun x => line x ++ ['\n'])) := by simp
    rw [e]
    simp only [readLoop]
    rw [h1 x (by simp) ws _ hw (ends_nl _)]
    simp only
    congr 1
    exact ih (fun y hy => h1 y (by simp [hy])) f (by omega) ['\n'] AllSpace.nl

theorem length_lines (line : β → Text) (xs : List β) : xs.length ≤ (xs.flatMap (fun x => line x ++ ['\n'])).length := by
  induction xs with
  | nil => simp
  | cons x xs ih => simp only [List.flatMap_cons, List.length_append, List.length_cons]; omega

theorem readAll_lines {step : IStream → Option (β × IStream)} (line : β → Text) (xs : List β)
    (h1 : ∀ x ∈ xs, ∀ ws r, AllSpace ws → Ends r → step ⟨ws ++ line x ++ r, false⟩ = some (x, ⟨r, false⟩))
    (h2 : ∀ ws, AllSpace ws → step ⟨ws, false⟩ = none) :
    readAll step ⟨xs.flatMap (fun x => line x ++ ['\n']), false⟩ = xs := by
  unfold readAll
  have := length_lines line xs
  exact readLoop_lines line xs h1 h2 _ (by simp only; omega) [] AllSpace.nil

theorem step2_put [Zero α] [Zero β] {F : Fmt α} {G : Fmt β} {a : α} {b : β} (ha : F.RoundTrips a) (hb : G.RoundTrips b)
    {ws r : Text} (hw : AllSpace ws) (hr : Ends r) :
    step2 F G ⟨ws ++ (F.put a ++ [' '] ++ G.put b) ++ r, false⟩ = some ((a, b), ⟨r, false⟩) := by
  unfold step2
  have e : ws ++ (F.put a ++ [' '] ++ G.put b) ++ r = ws ++ F.put a ++ (' ' :: (G.put b ++ r)) := by simp
  rw [e, step1_put ha hw (ends_sp _)]
  simp only
  have := step1_put hb (ws := [' ']) (r := r) AllSpace.sp hr
  simp only [List.cons_append, List.nil_append] at this
  rw [this]

theorem step2_space [Zero α] [Zero β] (F : Fmt α) (G : Fmt β) {ws : Text} (hw : AllSpace ws) :
    step2 F G ⟨ws, false⟩ = none := by
  unfold step2
  rw [step1_space F hw]

theorem step3_put [Zero α] {F : Fmt Int} {G : Fmt α} {i j : Int} {v : α} (hi : F.RoundTrips i) (hj : F.RoundTrips j)
    (hv : G.RoundTrips v) {ws r : Text} (hw : AllSpace ws) (hr : Ends r) :
    step3 F G ⟨ws ++ (F.put i ++ [' '] ++ F.put j ++ [' '] ++ G.put v) ++ r, false⟩ = some ((i, j, v), ⟨r, false⟩) := by
  unfold step3
  have e : ws ++ (F.put i ++ [' '] ++ F.put j ++ [' '] ++ G.put v) ++ r
      = ws ++ (F.put i ++ [' '] ++ F.put j) ++ (' ' :: (G.put v ++ r)) := by simp
  rw [e, step2_put hi hj hw (ends_sp _)]
  simp only
  have := step1_put hv (ws := [' ']) (r := r) AllSpace.sp hr
  simp only [List.cons_append, List.nil_append] at this
  rw [this]

theorem step3_space [Zero α] (F : Fmt Int) (G : Fmt α) {ws : Text} (hw : AllSpace ws) :
    step3 F G ⟨ws, false⟩ = none := by
  unfold step3
  rw [step2_space F F hw]

/-- Reading a known number of lines. -/
theorem readInto_lines [Zero α] {F : Fmt α} (xs : List α) (h : ∀ x ∈ xs, F.RoundTrips x) (ws r : Text) (hw : AllSpace ws) :
    ∃ ws', AllSpace ws' ∧ readInto F xs.length ⟨ws ++ xs.flatMap (fun x => F.put x ++ ['\n']) ++ r, false⟩
      = (xs, ⟨ws' ++ r, false⟩) := by
  induction xs generalizing ws with
  | nil => exact ⟨ws, hw, by simp [readInto]⟩
  | cons x xs ih =>
    obtain ⟨ws', hw', e'⟩ := ih (fun y hy => h y (by simp [hy])) ['\n'] AllSpace.nl
    refine ⟨ws', hw', ?_⟩
    have e : ws ++ (x :: xs).flatMap (fun x => F.put x ++ ['\n']) ++ r
        = ws ++ F.put x ++ ('\n' :: (xs.flatMap (fun x => F.put x ++ ['\n']) ++ r)) := by simp
    rw [e]
    simp only [readInto, List.length_cons]
    rw [extract_put (h x (by simp)) hw (ends_nl _)]
    simp only [List.cons_append, List.nil_append] at e'
    simp only [e', Option.getD_some]

/-! ## Integers -/

theorem digit_facts (d : Nat) (h : d < 10) : isDigit (digitChar d) = true ∧ (digitChar d).toNat - 48 = d ∧
    isSpace (digitChar d) = false ∧ digitChar d ≠ '-' ∧ digitChar d ≠ '+' := by
  have : ∀ d : Fin 10, isDigit (digitChar d.val) = true ∧ (digitChar d.val).toNat - 48 = d.val ∧
      isSpace (digitChar d.val) = false ∧ digitChar d.val ≠ '-' ∧ digitChar d.val ≠ '+' := by decide
  exact this ⟨d, h⟩

theorem isSpace_not_digit {c : Char} (h : isSpace c = true) : isDigit c = false := by
  unfold isSpace at h
  simp only [Bool.or_eq_true, beq_iff_eq] at h
  rcases h with ((((rfl | rfl) | rfl) | rfl) | rfl) | rfl <;> decide

theorem digitsVal_append (a : Text) (c : Char) : digitsVal (a ++ [c]) = 10 * digitsVal a + (c.toNat - 48) := by
  simp [digitsVal]

theorem showNatAux_spec (fuel n : Nat) (h : n < fuel) :
    (∀ c ∈ showNatAux fuel n, isDigit c = true) ∧ digitsVal (showNatAux fuel n) = n ∧
    ∃ c r, showNatAux fuel n = c :: r ∧ isSpace c = false ∧ c ≠ '-' ∧ c ≠ '+' := by
  induction fuel generalizing n with
  | zero => omega
  | succ f ih =>
    simp only [showNatAux]
    by_cases hn : n < 10
    · rw [if_pos hn]
      have hd := digit_facts n hn
      refine ⟨?_, ?_, ?_⟩
      · intro c hc; simp at hc; subst hc; exact hd.1
      · simp [digitsVal, hd.2.1]
      · exact ⟨_, _, rfl, hd.2.2⟩
    · rw [if_neg hn]
      obtain ⟨i1, i2, c, r, i3, i4⟩ := ih (n / 10) (by omega)
      have hd := digit_facts (n % 10) (by omega)
      refine ⟨?_, ?_, ?_⟩
      · intro c hc
        rcases List.mem_append.mp hc with h | h
        · exact i1 c h
        · simp at h; subst h; exact hd.1
      · rw [digitsVal_append, i2, hd.2.1]; omega
      · exact ⟨c, r ++ [digitChar (n % 10)], by rw [i3]; rfl, i4⟩

theorem takeWhile_digits {a r : Text} (ha : ∀ c ∈ a, isDigit c = true) (hr : Ends r) :
    (a ++ r).takeWhile isDigit = a ∧ (a ++ r).dropWhile isDigit = r := by
  induction a with
  | nil =>
    rcases hr with rfl | ⟨c, r, rfl, hc⟩
    · simp
    · have := isSpace_not_digit hc
      simp [this]
  | cons c a ih =>
    have i := ih (fun x hx => ha x (by simp [hx]))
    have hc := ha c (by simp)
    simp [hc, i.1, i.2]

theorem scanDigits_show (neg : Bool) (n : Nat) {r : Text} (hr : Ends r) :
    scanDigits neg (showNat n ++ r) = (some (if neg then -(n : Int) else n), r) := by
  obtain ⟨h1, h2, c, t, h3, _⟩ := showNatAux_spec (n + 1) n (by omega)
  obtain ⟨e1, e2⟩ := takeWhile_digits h1 hr
  unfold scanDigits showNat
  rw [e1, e2, h2, h3]
  simp

/-- Every integer survives printing and reading. -/
theorem intFmt_roundTrips (i : Int) : intFmt.RoundTrips i := by
  obtain ⟨_, _, c, t, h3, h4, h5, h6⟩ := showNatAux_spec (i.natAbs + 1) i.natAbs (by omega)
  refine ⟨?_, ?_⟩
  · show ∃ c r, showInt i = c :: r ∧ isSpace c = false
    unfold showInt
    by_cases h : i < 0
    · rw [if_pos h]; exact ⟨_, _, rfl, rfl⟩
    · rw [if_neg h]; exact ⟨c, t, h3, h4⟩
  · intro r hr
    show scanInt (showInt i ++ r) = _
    unfold showInt
    by_cases h : i < 0
    · rw [if_pos h, List.cons_append]
      simp only [scanInt, if_true]
      rw [scanDigits_show true _ hr]
      simp only [if_true, Prod.mk.injEq, Option.some.injEq, and_true]
      omega
    · rw [if_neg h]
      have e : showNat i.natAbs ++ r = c :: (t ++ r) := by
        show showNatAux _ _ ++ r = _
        rw [h3]; rfl
      have := scanDigits_show false i.natAbs hr
      rw [e] at this ⊢
      simp only [scanInt, if_neg h5, if_neg h6]
      rw [this]
      simp only [Bool.false_eq_true, if_false, Prod.mk.injEq, Option.some.injEq, and_true]
      omega

/-! ## The entries -/

theorem row_concat_left (n : Int) (rs : List (List (Int × α))) (r : List (Int × α)) {i : Int} (h0 : 0 ≤ i)
    (h : i < rs.length) : (Csr.ofRows n (rs ++ [r])).row i = (Csr.ofRows n rs).row i := by
  rw [row_ofRows_getD _ _ h0, row_ofRows_getD _ _ h0, List.getD_eq_getElem?_getD, List.getD_eq_getElem?_getD,
    List.getElem?_append_left (by omega)]

theorem entries_ofRows (n : Int) (rs : List (List (Int × α))) : entries (Csr.ofRows n rs) = triplesL rs := by
  induction rs using List.reverseRecOn with
  | nil => rfl
  | append_singleton rs r ih =>
    rw [triplesL_concat, ← ih]
    unfold entries
    have e1 : (Csr.ofRows n (rs ++ [r])).rows.toNat = rs.length + 1 := by simp [Csr.ofRows]
    have e2 : (Csr.ofRows n rs).rows.toNat = rs.length := by simp [Csr.ofRows]
    rw [e1, e2, iota_succ, List.flatMap_append]
    congr 1
    · apply List.flatMap_congr
      intro i hi
      simp only [iota, List.mem_map, List.mem_range] at hi
      obtain ⟨k, hk, rfl⟩ := hi
      rw [Int.ofNat_eq_natCast, row_concat_left n rs r (Int.natCast_nonneg k) (Int.ofNat_lt.mpr hk)]
    · simp only [List.flatMap_cons, List.flatMap_nil, List.append_nil]
      rw [row_ofRows_getD _ _ (by omega)]
      simp

theorem mem_entries {A : Csr α} (hA : A.WF) {e : Int × Int × α} (he : e ∈ entries A) :
    0 ≤ e.1 ∧ e.1 < A.rows ∧ 0 ≤ e.2.1 ∧ e.2.1 < A.cols ∧ e.2.2 ∈ A.data := by
  obtain ⟨n, rs, hn, hrs, rfl⟩ := hA.exists_rows
  rw [entries_ofRows, mem_triplesL] at he
  obtain ⟨k, hk, h1, h2⟩ := he
  have := hrs _ (List.getElem_mem hk) _ h2
  refine ⟨by omega, by simp only [Csr.ofRows]; omega, this.1, this.2, ?_⟩
  simp only [Csr.ofRows]
  exact List.mem_map_of_mem (List.mem_flatten.mpr ⟨_, List.getElem_mem hk, h2⟩)

/-- The values listed at a position add up to the coefficient. -/
theorem tripleCoef_entries [AddCommMonoid R] {A : Csr R} (hA : A.WF) (i j : Int) :
    tripleCoef (entries A) i j = A.coef i j := by
  obtain ⟨n, rs, hn, hrs, rfl⟩ := hA.exists_rows
  rw [entries_ofRows]
  have h := sum_triplesL rs (fun k e => if k = i ∧ e.1 = j then e.2 else (0 : R))
  have h' := tripleCoef_map (triplesL rs) id i j
  simp only [id] at h'
  rw [List.map_id_fun, id] at h'
  rw [h', h]
  by_cases hi : 0 ≤ i ∧ i < rs.length
  · rw [Finset.sum_eq_single i]
    · rw [coef_ofRows_getD _ _ hi.1, rowCoef_eq_sum_ite]
      simp
    · intro b _ hb
      simp [hb]
    · intro h; exact absurd (Finset.mem_Ico.mpr hi) h
  · rw [Csr.coef_of_not_row hA (by simpa [Csr.ofRows] using hi)]
    apply Finset.sum_eq_zero
    intro b hb
    rw [Finset.mem_Ico] at hb
    have : b ≠ i := by rintro rfl; exact hi hb
    simp [this]

/-- The writers' loop. -/
theorem writeEntries_eq {A : Csr α} (hA : A.WF) (symmetric : Bool) (line : Int → Int → Int → Res Text)
    (L : Int × Int × α → Text)
    (hl : ∀ i c k v, rd A.data k = .ok v → line i c k = .ok (L (i, c, v))) :
    writeEntries A symmetric line
      = .ok (((entries A).filter (fun e => symmetric = false ∨ e.2.1 ≥ e.1)).flatMap L) := by
  obtain ⟨n, rs, hn, hrs, rfl⟩ := hA.exists_rows
  rw [entries_ofRows]
  unfold writeEntries
  rw [rowLoop_ofRows n rs _ _ (fun i e out => if symmetric = false ∨ e.1 ≥ i then .ok (out ++ L (i, e)) else .ok out)]
  · suffices H : ∀ (l : List (Int × Int × α)) (out : Text),
        l.foldlM (fun s t => if symmetric = false ∨ t.2.1 ≥ t.1 then (.ok (s ++ L (t.1, t.2)) : Res Text) else .ok s) out
          = .ok (out ++ (l.filter (fun e => symmetric = false ∨ e.2.1 ≥ e.1)).flatMap L) by
      simpa using H (triplesL rs) []
    intro l
    induction l with
    | nil => intro out; simp [pure_eq_ok]
    | cons e l ih =>
      intro out
      rw [List.foldlM_cons]
      by_cases h : symmetric = false ∨ e.2.1 ≥ e.1
      · rw [if_pos h, ok_bind, ih, List.filter_cons_of_pos (by simpa using h)]
        simp
      · rw [if_neg h, ok_bind, ih, List.filter_cons_of_neg (by simpa using h)]
  · intro k m hk hm s
    rw [rd_indices_ofRows n rs k m hk hm, ok_bind]
    by_cases h : symmetric = false ∨ rs[k][m].1 ≥ (k : Int)
    · rw [if_pos h, if_pos h, hl _ _ _ _ (rd_data_ofRows n rs k m hk hm), ok_bind]
    · rw [if_neg h, if_neg h]

/-! ## Assembling what was read -/

/-- What one line adds. -/
def expand (base : Int) (symmetric : Bool) (e : Int × Int × α) : List (Int × Int × α) :=
  (e.1 - base, e.2.1 - base, e.2.2) :: if symmetric ∧ e.1 ≠ e.2.1 then [(e.2.1 - base, e.1 - base, e.2.2)] else []

theorem addEntry_eq (base : Int) (symmetric : Bool) (C : Coo α) (e : Int × Int × α) :
    addEntry base symmetric C e = C.addAll (expand base symmetric e) := by
  unfold addEntry expand Coo.addAll
  rw [List.foldlM_cons]
  congr 1
  funext C'
  by_cases h : symmetric = true ∧ e.1 ≠ e.2.1
  · rw [if_pos h, if_pos h, List.foldlM_cons]
    simp only [List.foldlM_nil, pure_eq_ok, bind_ok_right]
  · rw [if_neg h, if_neg h]; rfl

theorem foldlM_addAll {f : Coo α → β → Res (Coo α)} {X : β → List (Int × Int × α)}
    (h : ∀ C e, f C e = C.addAll (X e)) (l : List β) (C : Coo α) : l.foldlM f C = C.addAll (l.flatMap X) := by
  induction l generalizing C with
  | nil => rfl
  | cons e l ih =>
    rw [List.foldlM_cons, List.flatMap_cons]
    unfold Coo.addAll
    rw [List.foldlM_append, h]
    congr 1
    funext C'
    exact ih C'

theorem addAll_ok (l : List (Int × Int × α)) (C : Coo α)
    (h : ∀ e ∈ l, C.Admits e.1 e.2.1) : C.addAll l = .ok { C with entries := C.entries ++ l } := by
  induction l generalizing C with
  | nil => simp [Coo.addAll, pure_eq_ok]
  | cons e l ih =>
    unfold Coo.addAll
    have h1 := h e (by simp)
    rw [List.foldlM_cons, Coo.add_ok h1.1 h1.2.1 h1.2.2, ok_bind]
    have := ih { C with entries := C.entries ++ [(e.1, e.2.1, e.2.2)] } (fun x hx => h x (by simp [hx]))
    unfold Coo.addAll at this
    rw [this]
    simp

theorem new_wf : (Coo.new : Coo α).WF := ⟨le_rfl, le_rfl, by simp [Coo.new], by simp [Coo.new]⟩

/-- Reading an unsized list of entries with non-negative positions. -/
theorem toSparse_new [AddMonoid R] (l : List (Int × Int × R)) (h : ∀ e ∈ l, 0 ≤ e.1 ∧ 0 ≤ e.2.1) :
    ∃ A, (Coo.new.addAll l >>= fun C => C.toSparse) = .ok A ∧ A.WF ∧ A.NoDup ∧
      (∀ i j, A.coef i j = tripleCoef l i j) ∧ A.rows = (⟨0, 0, false, l⟩ : Coo R).findSize.1 ∧
      A.cols = (⟨0, 0, false, l⟩ : Coo R).findSize.2 := by
  have e := addAll_ok l (Coo.new : Coo R) (fun e he => ⟨(h e he).1, (h e he).2, by simp [Coo.new]⟩)
  rw [e, ok_bind]
  simp only [Coo.new, List.nil_append]
  have hwf : (⟨0, 0, false, l⟩ : Coo R).WF := ⟨le_rfl, le_rfl, h, by simp⟩
  obtain ⟨A, h1, h2, h3, h4, h5, h6⟩ := C17_toSparse _ hwf
  exact ⟨A, h1, h2, h5, h6, h3, h4⟩

/-- A sparse matrix that was read: its coefficients come from the entries read. -/
theorem toSparse_of [AddMonoid R] {C0 : Coo R} (h0 : C0 = Coo.new ∨ ∃ r c, Coo.ofSize r c = .ok C0)
    {l : List (Int × Int × R)} {A : Csr R} (h : (C0.addAll l >>= fun C => C.toSparse) = .ok A) :
    A.WF ∧ A.NoDup ∧ (∀ i j, A.coef i j = tripleCoef l i j) ∧ (∀ e ∈ l, 0 ≤ e.1 ∧ 0 ≤ e.2.1) ∧
    (C0 = Coo.new → A.rows = (⟨0, 0, false, l⟩ : Coo R).findSize.1 ∧ A.cols = (⟨0, 0, false, l⟩ : Coo R).findSize.2) := by
  rw [bind_eq_ok] at h
  obtain ⟨C, h1, h2⟩ := h
  obtain ⟨hw, hc⟩ := C17_history C0 C l h0 h1
  obtain ⟨B, b1, b2, b3, b4, b5, b6⟩ := C17_toSparse C hw
  rw [h2] at b1
  obtain rfl := Except.ok.inj b1
  have hwf0 : C0.WF ∧ C0.entries = [] := by
    rcases h0 with rfl | ⟨r, c, h0⟩
    · exact ⟨new_wf, rfl⟩
    · unfold Coo.ofSize at h0
      by_cases hr : r ≥ 0
      · by_cases hc : c ≥ 0
        · rw [cassert_true hr, cassert_true hc] at h0
          obtain rfl := Except.ok.inj h0
          exact ⟨⟨hr, hc, by simp, by simp⟩, rfl⟩
        · rw [cassert_true hr, cassert_false hc] at h0; cases h0
      · rw [cassert_false hr] at h0; cases h0
  obtain ⟨i1, i2, i3, i4, i5⟩ := Coo.addAll_inv hwf0.1 h1
  rw [hwf0.2, List.nil_append] at i5
  refine ⟨b2, b5, fun i j => by rw [b6, hc], ?_, ?_⟩
  · rw [← i5]; exact i1.entry_nonneg
  · rintro rfl
    have : C = ⟨0, 0, false, l⟩ := by
      cases C
      simp only [Coo.new] at i2 i3 i4 i5
      subst i2 i3 i4 i5
      rfl
    rw [← this]
    exact ⟨b3, b4⟩

/-! ## Symmetric entries -/

theorem tripleCoef_expand_symm [AddCommMonoid R] (base : Int) (l : List (Int × Int × R)) (i j : Int) :
    tripleCoef (l.flatMap (expand base true)) i j = tripleCoef (l.flatMap (expand base true)) j i := by
  rw [tripleCoef_flatMap, tripleCoef_flatMap]
  congr 1
  apply List.map_congr_left
  intro e _
  unfold expand
  by_cases h : e.1 = e.2.1
  · simp only [h, ne_eq, not_true_eq_false, and_false, if_false, tripleCoef_cons]
    congr 1
    by_cases h2 : e.2.1 - base = i ∧ e.2.1 - base = j
    · rw [if_pos h2, if_pos ⟨h2.2, h2.1⟩]
    · rw [if_neg h2, if_neg (fun h => h2 ⟨h.2, h.1⟩)]
  · simp only [ne_eq, h, not_false_eq_true, and_self, if_true, tripleCoef_cons]
    simp only [tripleCoef_nil, add_zero]
    rw [add_comm]
    congr 1
    · congr 1; exact propext and_comm
    · congr 1; exact propext and_comm

/-- The upper triangle of a symmetric matrix, read symmetrically, is the matrix. -/
theorem tripleCoef_upper [AddCommMonoid R] {A : Csr R} (hA : A.WF) (hs : ∀ i j, A.coef i j = A.coef j i) (i j : Int) :
    tripleCoef (((entries A).filter (fun e => e.2.1 ≥ e.1)).flatMap (expand 0 true)) i j = A.coef i j := by
  have key : ∀ (l : List (Int × Int × R)), tripleCoef ((l.filter (fun e => e.2.1 ≥ e.1)).flatMap (expand 0 true)) i j
      = if i ≤ j then tripleCoef l i j else tripleCoef l j i := by
    intro l
    induction l with
    | nil => simp
    | cons e l ih =>
      by_cases h : e.2.1 ≥ e.1
      · rw [List.filter_cons_of_pos (by simpa using h), List.flatMap_cons, tripleCoef_append, ih]
        unfold expand
        by_cases he : e.1 = e.2.1
        · simp only [he, ne_eq, not_true_eq_false, and_false, if_false, tripleCoef_cons, tripleCoef_nil, add_zero, sub_zero]
          by_cases hij : i ≤ j
          · rw [if_pos hij, if_pos hij]
          · rw [if_neg hij, if_neg hij]
            congr 1
            congr 1; exact propext and_comm
        · simp only [ne_eq, he, not_false_eq_true, and_self, if_true, tripleCoef_cons, tripleCoef_nil, add_zero, sub_zero]
          by_cases hij : i ≤ j
          · rw [if_pos hij, if_pos hij]
            have : ¬ (e.2.1 = i ∧ e.1 = j) := by omega
            rw [if_neg this, add_zero]
          · rw [if_neg hij, if_neg hij]
            have : ¬ (e.1 = i ∧ e.2.1 = j) := by omega
            rw [if_neg this, zero_add]
            congr 1
            congr 1; exact propext and_comm
      · rw [List.filter_cons_of_neg (by simpa using h), ih, tripleCoef_cons, tripleCoef_cons]
        by_cases hij : i ≤ j
        · rw [if_pos hij, if_pos hij, if_neg (by omega), zero_add]
        · rw [if_neg hij, if_neg hij, if_neg (by omega), zero_add]
  rw [key, tripleCoef_entries hA, tripleCoef_entries hA, hs j i]
  split <;> rfl

/-! ## Lines -/

theorem getLine_cons {line r : Text} (h : '\n' ∉ line) :
    getLine ⟨line ++ '\n' :: r, false⟩ = some (line, ⟨r, false⟩) := by
  have hx : ∀ c ∈ line, (c != '\n') = true := by
    intro c hc
    simp only [bne_iff_ne, ne_eq]
    rintro rfl
    exact h hc
  unfold getLine
  rw [if_neg (by simp)]
  simp only [List.takeWhile_append_of_pos hx, List.dropWhile_append_of_pos hx]
  simp

theorem readLoop_getLine (ls : List Text) (h : ∀ l ∈ ls, '\n' ∉ l) (fuel : Nat) (hf : ls.length < fuel) :
    readLoop getLine fuel ⟨ls.flatMap (fun l => l ++ ['\n']), false⟩ = ls := by
  induction ls generalizing fuel with
  | nil =>
    obtain ⟨f, rfl⟩ : ∃ f, fuel = f + 1 := ⟨fuel - 1, by omega⟩
    simp [readLoop, getLine]
  | cons l ls ih =>
    simp only [List.length_cons] at hf
    obtain ⟨f, rfl⟩ : ∃ f, fuel = f + 1 := ⟨fuel - 1, by omega⟩
    have e : (l :: ls).flatMap (fun l => l ++ ['\n']) = l ++ '\n' :: ls.flatMap (fun l => l ++ ['\n']) := by simp
    rw [e]
    simp only [readLoop]
    rw [getLine_cons (h l (by simp))]
    simp only
    rw [ih (fun x hx => h x (by simp [hx])) f (by omega)]

theorem readAll_getLine (ls : List Text) (h : ∀ l ∈ ls, '\n' ∉ l) :
    readAll getLine ⟨ls.flatMap (fun l => l ++ ['\n']), false⟩ = ls := by
  unfold readAll
  have := length_lines (fun l : Text => l) ls
  exact readLoop_getLine ls h _ (Nat.lt_succ_of_le this)

theorem nl_not_showInt (i : Int) : '\n' ∉ showInt i := by
  obtain ⟨h1, _⟩ := showNatAux_spec (i.natAbs + 1) i.natAbs (by omega)
  have h2 : '\n' ∉ showNat i.natAbs := fun h => by
    have := h1 _ h
    revert this; decide
  unfold showInt
  split
  · simp [h2]
  · exact h2

/-! ## Tables -/

/-- A row of a table. -/
def rowText : List Int → Text
  | [] => []
  | [c] => showInt c
  | c :: d :: r => showInt c ++ ' ' :: rowText (d :: r)

theorem nl_not_rowText : ∀ r : List Int, '\n' ∉ rowText r
  | [] => by simp [rowText]
  | [c] => nl_not_showInt c
  | c :: d :: r => by
    have := nl_not_rowText (d :: r)
    simp only [rowText, List.mem_append, List.mem_cons, not_or]
    exact ⟨nl_not_showInt c, by decide, this⟩

theorem showInt_length (i : Int) : 0 < (showInt i).length := by
  obtain ⟨c, r, h, _⟩ := (intFmt_roundTrips i).first
  have : showInt i = c :: r := h
  rw [this]; simp

theorem rowText_length : ∀ r : List Int, r.length ≤ (rowText r).length
  | [] => by simp
  | [c] => showInt_length c
  | c :: d :: r => by
    have := rowText_length (d :: r)
    have := showInt_length c
    simp only [rowText, List.length_append, List.length_cons] at *
    omega

theorem readLoop_rowText : ∀ (r : List Int) (fuel : Nat) (ws : Text), AllSpace ws → r.length < fuel →
    readLoop (step1 intFmt) fuel ⟨ws ++ rowText r, false⟩ = r
  | [], fuel, ws, hw, hf => by
    obtain ⟨f, rfl⟩ : ∃ f, fuel = f + 1 := ⟨fuel - 1, by omega⟩
    simp only [rowText, List.append_nil, readLoop, step1_space intFmt hw]
  | [c], fuel, ws, hw, hf => by
    obtain ⟨f, rfl⟩ : ∃ f, fuel = f + 2 := ⟨fuel - 2, by simp at hf; omega⟩
    have := step1_put (intFmt_roundTrips c) (ws := ws) (r := []) hw ends_nil
    rw [List.append_nil] at this
    simp only [rowText, readLoop]
    rw [show step1 intFmt ⟨ws ++ showInt c, false⟩ = _ from this]
    simp only [step1_space intFmt AllSpace.nil]
  | c :: d :: r, fuel, ws, hw, hf => by
    simp only [List.length_cons] at hf
    obtain ⟨f, rfl⟩ : ∃ f, fuel = f + 1 := ⟨fuel - 1, by omega⟩
    have := step1_put (intFmt_roundTrips c) (ws := ws) (r := ' ' :: rowText (d :: r)) hw (ends_sp _)
    simp only [rowText, readLoop]
    rw [← List.append_assoc]
    rw [show step1 intFmt ⟨ws ++ showInt c ++ ' ' :: rowText (d :: r), false⟩ = _ from this]
    simp only
    rw [show ' ' :: rowText (d :: r) = [' '] ++ rowText (d :: r) from rfl,
      readLoop_rowText (d :: r) f [' '] AllSpace.sp (by simp only [List.length_cons]; omega)]

theorem readAll_rowText (r : List Int) : readAll (step1 intFmt) ⟨rowText r, false⟩ = r := by
  have := rowText_length r
  exact readLoop_rowText r _ [] AllSpace.nil (by simp only; omega)

theorem writeTable_row (n : Int) (rs : List (List (Int × α))) (k : Nat) (hk : k < rs.length) (out : Text) :
    (Csr.ofRows n rs).forRow (k : Int) out (fun j out => do
      let hi ← rd (Csr.ofRows n rs).indptr ((k : Int) + 1)
      let c ← rd (Csr.ofRows n rs).indices j
      .ok (out ++ showInt c ++ (if j + 1 = hi then [] else [' ']))) = .ok (out ++ rowText (rs[k].map Prod.fst)) := by
  unfold Csr.forRow
  have h1 : rd (Csr.ofRows n rs).indptr (k : Int) = _ := rd_ptrs rs k hk.le
  have h2 : rd (Csr.ofRows n rs).indptr ((k : Int) + 1) = _ := rd_ptrs_succ rs k hk
  rw [h1, ok_bind, h2, ok_bind]
  suffices H : ∀ (d m : Nat), m + d = rs[k].length → ∀ out : Text,
      forUp (((rs.take k).flatten.length + m : Nat) : Int) (((rs.take k).flatten.length + rs[k].length : Nat) : Int) out
        (fun j out => do
          let hi ← (.ok (((rs.take k).flatten.length + rs[k].length : Nat) : Int) : Res Int)
          let c ← rd (Csr.ofRows n rs).indices j
          .ok (out ++ showInt c ++ (if j + 1 = hi then [] else [' '])))
        = .ok (out ++ rowText ((rs[k].drop m).map Prod.fst)) by
    have := H rs[k].length 0 (by omega) out
    simpa using this
  intro d
  induction d with
  | zero =>
    intro m hm out
    rw [forUp_nil (by omega), List.drop_of_length_le (by omega)]
    simp [rowText]
  | succ d ih =>
    intro m hm out
    have hm' : m < rs[k].length := by omega
    rw [forUp_cons (by omega)]
    simp only [ok_bind]
    rw [rd_indices_ofRows n rs k m hk hm', ok_bind, ok_bind]
    have := ih (m + 1) (by omega) (out ++ showInt rs[k][m].1 ++
      (if (((rs.take k).flatten.length + m : Nat) : Int) + 1 = (((rs.take k).flatten.length + rs[k].length : Nat) : Int)
        then [] else [' ']))
    rw [show (((rs.take k).flatten.length + m : Nat) : Int) + 1 = (((rs.take k).flatten.length + (m + 1) : Nat) : Int) by
      push_cast; ring] at this ⊢
    simp only [ok_bind] at this
    rw [this, List.drop_eq_getElem_cons hm', List.map_cons]
    by_cases hl : m + 1 = rs[k].length
    · rw [if_pos (by rw [hl]), List.drop_of_length_le (by omega)]
      simp [rowText]
    · rw [if_neg (by omega), List.drop_eq_getElem_cons (show m + 1 < rs[k].length by omega), List.map_cons]
      simp [rowText]

theorem writeTable_eq (n : Int) (rs : List (List (Int × α))) :
    writeTable (Csr.ofRows n rs) true = .ok ((rs.map (fun r => rowText (r.map Prod.fst))).flatMap (fun l => l ++ ['\n'])) := by
  unfold writeTable openOut
  rw [if_pos rfl, ok_bind]
  have hr : (Csr.ofRows n rs).rows = ((rs.length : Nat) : Int) := rfl
  rw [hr]
  obtain ⟨s, h1, h2⟩ := forUp_inv_nat (n := rs.length) (s := ([] : Text)) (fun k out => k ≤ rs.length →
      out = ((rs.take k).map (fun r => rowText (r.map Prod.fst))).flatMap (fun l => l ++ ['\n'])) (f := fun i out => do
    let out ← (Csr.ofRows n rs).forRow i out (fun j out => do
      let hi ← rd (Csr.ofRows n rs).indptr (i + 1)
      let c ← rd (Csr.ofRows n rs).indices j
      .ok (out ++ showInt c ++ (if j + 1 = hi then [] else [' '])))
    .ok (out ++ ['\n'])) (by simp) (by
      intro k out hk hI
      refine ⟨_, by rw [writeTable_row n rs k hk out, ok_bind], ?_⟩
      intro _
      rw [hI hk.le, List.take_succ_eq_append_getElem hk, List.map_append, List.flatMap_append, List.append_assoc]
      simp only [List.map_cons, List.map_nil, List.flatMap_cons, List.flatMap_nil, List.append_nil])
  rw [h1, h2 le_rfl, List.take_length]

theorem foldl_ptrs (rs : List (List β)) :
    rs.foldl (fun p r => p ++ [p.getLastD 0 + (r.length : Int)]) [0] = ptrs rs := by
  induction rs using List.reverseRecOn with
  | nil => rfl
  | append_singleton rs r ih =>
    rw [List.foldl_append, ih, ptrs_concat]
    simp only [List.foldl_cons, List.foldl_nil]
    congr 2
    have : (ptrs rs).getLastD 0 = ((rs.flatten.length : Nat) : Int) := by
      rw [List.getLastD_eq_getLast?, List.getLast?_eq_getElem?]
      rw [List.getElem?_eq_getElem (by simp), getElem_ptrs]
      simp [-List.length_flatten]
    rw [this]
    simp [-List.length_flatten]

/-! ## Bytes -/

theorem leBytes_length (k n : Nat) : (leBytes k n).length = k := by
  induction k generalizing n with
  | zero => rfl
  | succ k ih => simp [leBytes, ih]

theorem leVal_leBytes (k n : Nat) (h : n < 256 ^ k) : leVal (leBytes k n) = n := by
  induction k generalizing n with
  | zero => simp at h; simp [leBytes, leVal, h]
  | succ k ih =>
    simp only [leBytes, leVal]
    rw [ih (n / 256) (by rw [Nat.div_lt_iff_lt_mul (by decide)]; rw [pow_succ] at h; exact h)]
    omega

/-- `int` values that fit survive. -/
theorem intRep_roundTrips {i : Int} (h : IsInt32 i) : intRep.RoundTrips i := by
  unfold IsInt32 at h
  refine ⟨leBytes_length _ _, ?_⟩
  show (if leVal (leBytes 4 (i % 2 ^ 32).toNat) < 2 ^ 31 then (leVal (leBytes 4 (i % 2 ^ 32).toNat) : Int)
    else leVal (leBytes 4 (i % 2 ^ 32).toNat) - 2 ^ 32) = _
  have hb : (i % 2 ^ 32).toNat < 256 ^ 4 := by norm_num; omega
  rw [leVal_leBytes 4 _ hb]
  split <;> omega

theorem encodeArr_length {F : Rep α} {v : List α} (h : ∀ x ∈ v, F.RoundTrips x) :
    (encodeArr F v).length = v.length * F.size := by
  induction v with
  | nil => simp [encodeArr]
  | cons x v ih =>
    have := ih (fun y hy => h y (by simp [hy]))
    unfold encodeArr at *
    rw [List.flatMap_cons, List.length_append, this, (h x (by simp)).length_eq, List.length_cons]
    ring

theorem decode_encode {F : Rep α} {v : List α} (h : ∀ x ∈ v, F.RoundTrips x) (r : List Byte) :
    decodeArr F v.length (encodeArr F v ++ r) = v := by
  induction v with
  | nil => rfl
  | cons x v ih =>
    have hx := h x (by simp)
    have e : encodeArr F (x :: v) ++ r = F.enc x ++ (encodeArr F v ++ r) := by simp [encodeArr]
    rw [e]
    simp only [decodeArr, List.length_cons]
    rw [← hx.length_eq, List.take_left' rfl, List.drop_left' rfl, hx.back]
    rw [ih (fun y hy => h y (by simp [hy]))]

theorem readBytes_full {b mem r : List Byte} {n : Nat} (hb : b.length = n) (hm : mem.length = n) :
    readBytes n mem ⟨b ++ r, false⟩ = (b, ⟨r, false⟩) := by
  unfold readBytes
  simp only [Bool.false_eq_true, if_false]
  rw [List.take_left' hb, List.drop_left' hb, hb, List.drop_of_length_le (by omega), List.append_nil]
  simp only [List.length_append, Prod.mk.injEq, BStream.mk.injEq, decide_eq_false_iff_not, true_and]
  omega

theorem readArr_full [Zero α] {F : Rep α} {v : List α} (h : ∀ x ∈ v, F.RoundTrips x) (hne : v ≠ [])
    (h0 : F.RoundTrips 0) (r : List Byte) :
    readArr F v.length ⟨encodeArr F v ++ r, false⟩ = .ok (v, ⟨r, false⟩) := by
  have hl : 0 < v.length := List.length_pos_iff.mpr hne
  unfold readArr
  simp only
  rw [rd_int le_rfl (by simpa using hl), ok_bind,
    readBytes_full (encodeArr_length h) (by
      rw [encodeArr_length (by intro x hx; rw [List.eq_of_mem_replicate hx]; exact h0)]; simp)]
  have := decode_encode h []
  rw [List.append_nil] at this
  simp only [this]

theorem writeArr_full {F : Rep α} {v : List α} (hne : v ≠ []) {n : Nat} (hn : v.length = n) :
    writeArr F v n = .ok (encodeArr F v) := by
  have hl : 0 < v.length := List.length_pos_iff.mpr hne
  unfold writeArr
  rw [rd_int le_rfl (by omega), ok_bind, if_pos (by omega), List.take_of_length_le (by omega)]

theorem readSize_full {n : Nat} (hn : n < 2 ^ 64) (r : List Byte) :
    readSize ⟨leBytes 8 n ++ r, false⟩ = (some n, ⟨r, false⟩) := by
  unfold readSize
  rw [readBytes_full (leBytes_length 8 n) (leBytes_length 8 0)]
  simp only [Bool.false_eq_true, if_false]
  rw [leVal_leBytes 8 n (by norm_num at *; exact hn)]

/-! ## Headers -/

theorem mtxHeader_lines (hs : List Text) (hc : ∀ h ∈ hs, '\n' ∉ h ∧ h.head? = some '%') (line r : Text)
    (hl : '\n' ∉ line) (hp : line.head? ≠ some '%') (fuel : Nat) (hf : hs.length < fuel) (sym : Bool) :
    mtxHeader fuel sym ⟨hs.flatMap (fun h => h ++ ['\n']) ++ (line ++ '\n' :: r), false⟩
      = (sym || hs.any (hasSub symWord), line, ⟨r, false⟩) := by
  induction hs generalizing fuel sym with
  | nil =>
    obtain ⟨f, rfl⟩ : ∃ f, fuel = f + 1 := ⟨fuel - 1, by omega⟩
    simp only [List.flatMap_nil, List.nil_append, mtxHeader, getLine_cons hl, if_neg hp, List.any_nil, Bool.or_false]
  | cons h hs ih =>
    simp only [List.length_cons] at hf
    obtain ⟨f, rfl⟩ : ∃ f, fuel = f + 1 := ⟨fuel - 1, by omega⟩
    have e : (h :: hs).flatMap (fun h => h ++ ['\n']) ++ (line ++ '\n' :: r)
        = h ++ '\n' :: (hs.flatMap (fun h => h ++ ['\n']) ++ (line ++ '\n' :: r)) := by simp
    have hh := hc h (by simp)
    rw [e]
    simp only [mtxHeader, getLine_cons hh.1, if_pos hh.2]
    rw [ih (fun x hx => hc x (by simp [hx])) f (by omega)]
    simp [Bool.or_assoc]

theorem hasSub_iff (p t : Text) : hasSub p t = true ↔ p <:+: t := by
  induction t with
  | nil => simp [hasSub]
  | cons c t ih =>
    simp only [hasSub, Bool.or_eq_true, ih, List.infix_cons_iff, List.isPrefixOf_iff_prefix]

theorem mtxSize_eq {r c z : Int} (hr : 0 ≤ r) (hc : 0 ≤ c) (hz : 0 ≤ z) :
    (mtxSize (showInt r ++ [' '] ++ showInt c ++ [' '] ++ showInt z) : Res (Coo α)) = .ok ⟨r, c, true, []⟩ := by
  have e1 := extract_put (intFmt_roundTrips r) (ws := []) (r := ' ' :: (showInt c ++ ' ' :: showInt z)) AllSpace.nil
    (ends_sp _) none
  have e2 := extract_put (intFmt_roundTrips c) (ws := [' ']) (r := ' ' :: showInt z) AllSpace.sp (ends_sp _) none
  have e3 := extract_put (intFmt_roundTrips z) (ws := [' ']) (r := []) AllSpace.sp ends_nil none
  have p : ∀ x, intFmt.put x = showInt x := fun _ => rfl
  simp only [p, List.nil_append, List.cons_append, List.append_nil] at e1 e2 e3
  unfold mtxSize
  have e : showInt r ++ [' '] ++ showInt c ++ [' '] ++ showInt z = showInt r ++ ' ' :: (showInt c ++ ' ' :: showInt z) := by
    simp
  rw [e]
  simp only [e1, e2, e3, useVar, ok_bind, Coo.ofSize, cassert_true (show r ≥ 0 from hr), cassert_true (show c ≥ 0 from hc),
    cassert_true (show z ≥ 0 from hz)]

end Io
end Linalg
