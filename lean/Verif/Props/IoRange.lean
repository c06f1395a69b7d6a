import Verif.Model.IoRange
import Verif.Props.Io
import Verif.Props.Width

/-!
# C133: reading numbers that do not fit

`Model/IoRange.lean` compared with the readers on unbounded integers, of which C50 to C56 speak.
-/

namespace Linalg
open Cpp

namespace Io
variable {α β R : Type}

/-! ## Loops -/

theorem step1_int32 (s : IStream) : step1 int32 s = (step1 intFmt s).filter (fun p => inInt p.1) := by
  unfold step1 extract
  by_cases hf : s.failed = true
  · simp [hf]
  · rw [if_neg hf, if_neg hf]
    cases h : s.rest.dropWhile isSpace with
    | nil => simp
    | cons c t =>
      have key : ∀ x : Option Int × Text, intFmt.get (c :: t) = x → int32.get (c :: t) = (match x with
          | (some v, r) => (if inInt v = true then some v else none, r)
          | (none, r) => (none, r)) := by
        intro x hx
        subst hx
        rfl
      obtain ⟨x, hx⟩ : ∃ x, intFmt.get (c :: t) = x := ⟨_, rfl⟩
      simp only [key x hx, hx]
      obtain ⟨v, r⟩ := x
      cases v with
      | none => simp
      | some v =>
        by_cases hv : inInt v = true
        · simp [hv, Option.filter]
        · simp [hv, Option.filter]

theorem step2_int32 (s : IStream) : step2 int32 int32 s = (step2 intFmt intFmt s).filter (fun p => inInt p.1.1 && inInt p.1.2) := by
  unfold step2
  rw [step1_int32]
  cases h : step1 intFmt s with
  | none => simp
  | some p =>
    obtain ⟨a, s1⟩ := p
    by_cases ha : inInt a = true
    · simp only [Option.filter, ha, if_true]
      rw [step1_int32]
      cases h2 : step1 intFmt s1 with
      | none => simp
      | some q =>
        obtain ⟨b, s2⟩ := q
        by_cases hb : inInt b = true
        · simp [Option.filter, ha, hb]
        · simp [Option.filter, ha, hb]
    · simp only [Option.filter, ha, Bool.false_eq_true, if_false]
      cases step1 intFmt s1 with
      | none => simp
      | some q => simp [ha]

theorem step3_int32 [Zero α] (F : Fmt α) (s : IStream) : step3 int32 F s = (step3 intFmt F s).filter (fun p => inInt p.1.1 && inInt p.1.2.1) := by
  unfold step3
  rw [step2_int32]
  cases h : step2 intFmt intFmt s with
  | none => simp
  | some p =>
    obtain ⟨⟨a, b⟩, s1⟩ := p
    by_cases hab : (inInt a && inInt b) = true
    · simp only [Option.filter, hab, if_true]
      cases h2 : step1 F s1 with
      | none => simp
      | some q => simp [hab]
    · simp only [Option.filter, hab, Bool.false_eq_true, if_false]
      cases h2 : step1 F s1 with
      | none => simp
      | some q => simp [hab]

theorem readLoop_filter (step step' : IStream → Option (β × IStream)) (ok : β → Bool) (h : ∀ s, step' s = (step s).filter (fun p => ok p.1)) (fuel : Nat) (s : IStream) :
    readLoop step' fuel s = (readLoop step fuel s).takeWhile ok := by
  induction fuel generalizing s with
  | zero => rfl
  | succ fuel ih =>
    unfold readLoop
    rw [h]
    cases e : step s with
    | none => simp
    | some p =>
      obtain ⟨x, s'⟩ := p
      by_cases hx : ok x = true
      · simp [Option.filter, hx, ih]
      · simp [Option.filter, hx]

/-- **C133.**  A loop that reads numbers ends silently at the first one that does not fit an `int`; what follows it is not read, even if it fits. -/
theorem C133_loop [Zero α] (F : Fmt α) (s : IStream) :
    readAll (step1 int32) s = (readAll (step1 intFmt) s).takeWhile inInt ∧
    readAll (step2 int32 int32) s = (readAll (step2 intFmt intFmt) s).takeWhile (fun e => inInt e.1 && inInt e.2) ∧
    readAll (step3 int32 F) s = (readAll (step3 intFmt F) s).takeWhile (fun e => inInt e.1 && inInt e.2.1) :=
  ⟨readLoop_filter _ _ _ step1_int32 _ _, readLoop_filter _ _ _ step2_int32 _ _, readLoop_filter _ _ (fun e : Int × Int × α => inInt e.1 && inInt e.2.1)
    (step3_int32 F) _ _⟩

/-! ## Lists of entries -/

theorem foldlM_congr_mem {σ : Type} {f g : σ → β → Res σ} (l : List β) (h : ∀ e ∈ l, ∀ s, f s e = g s e) (s : σ) : l.foldlM f s = l.foldlM g s := by
  induction l generalizing s with
  | nil => rfl
  | cons e l ih =>
    rw [List.foldlM_cons, List.foldlM_cons, h e (by simp)]
    congr 1
    funext s'
    exact ih (fun e he => h e (by simp [he])) s'

theorem addEntry32_eq {base : Int} (symmetric : Bool) {e : Int × Int × α} (h1 : -intMax - 1 ≤ e.1 - base) (h2 : e.1 - base ≤ intMax) (h3 : -intMax - 1 ≤ e.2.1 - base)
    (h4 : e.2.1 - base ≤ intMax) (C : Coo α) : addEntry32 base symmetric C e = addEntry base symmetric C e := by
  unfold addEntry32 addEntry
  rw [fit_ok h1 h2, ok_bind, fit_ok h3 h4, ok_bind]

theorem takeWhile_all {p : β → Bool} {l : List β} (h : ∀ x ∈ l, p x = true) : l.takeWhile p = l := by
  induction l with
  | nil => rfl
  | cons x l ih => rw [List.takeWhile_cons, h x (by simp), if_pos rfl, ih (fun y hy => h y (by simp [hy]))]

/-- Positions whose row and column numbers can be counted in an `int`. -/
def Countable32 (e : Int × Int × α) : Prop := e.1 < intMax - 1 ∧ e.2.1 < intMax - 1

theorem foldl_max_lt (l : List (Int × Int × α)) (m : Int × Int) (b c : Int) (h : ∀ e ∈ l, e.1 < b ∧ e.2.1 < c) (h1 : m.1 < b) (h2 : m.2 < c) :
    (l.foldl (fun (m : Int × Int) e => (max m.1 e.1, max m.2 e.2.1)) m).1 < b ∧ (l.foldl (fun (m : Int × Int) e => (max m.1 e.1, max m.2 e.2.1)) m).2 < c := by
  induction l generalizing m with
  | nil => exact ⟨h1, h2⟩
  | cons e l ih =>
    have := h e (by simp)
    exact ih _ (fun x hx => h x (by simp [hx])) (by simp only; omega) (by simp only; omega)

/-- The end of the readers without a size. -/
theorem finish_new [AddMonoid R] (l : List (Int × Int × R)) (h : ∀ e ∈ l, Countable32 e) (hn : (l.length : Int) ≤ intMax) :
    (Coo.new.addAll l >>= fun C => C.toSparseOn (fit intMax)) = (Coo.new.addAll l >>= fun C => C.toSparse) := by
  cases hc : (Coo.new : Coo R).addAll l with
  | error e => rfl
  | ok C =>
    rw [ok_bind, ok_bind]
    obtain ⟨i1, i2, i3, i4, i5⟩ := Coo.addAll_inv new_wf hc
    have i5 : C.entries = l := by simpa [Coo.new] using i5
    have i4 : C.sizeSet = false := by simpa [Coo.new] using i4
    have hm := foldl_max_lt C.entries (0, 0) (intMax - 1) (intMax - 1) (fun e he => h e (by rw [← i5]; exact he)) (by decide) (by decide)
    have hf : C.findSize.1 < intMax ∧ C.findSize.2 ≤ intMax := by
      unfold Coo.findSize
      rw [i4]
      simp only [Bool.false_eq_true, if_false]
      omega
    exact C108_coo intMax C i1 hf.1 hf.2 (by rw [i5]; exact hn)

/-- The end of the readers with a size. -/
theorem finish_size [AddMonoid R] (r c : Int) (hr : r < intMax) (hc : c ≤ intMax) (hr0 : 0 ≤ r) (hc0 : 0 ≤ c) (l : List (Int × Int × R)) (hn : (l.length : Int) ≤ intMax) :
    ((⟨r, c, true, []⟩ : Coo R).addAll l >>= fun C => C.toSparseOn (fit intMax)) = ((⟨r, c, true, []⟩ : Coo R).addAll l >>= fun C => C.toSparse) := by
  cases hC : (⟨r, c, true, []⟩ : Coo R).addAll l with
  | error e => rfl
  | ok C =>
    rw [ok_bind, ok_bind]
    obtain ⟨i1, i2, i3, i4, i5⟩ := Coo.addAll_inv ⟨hr0, hc0, by simp, by simp⟩ hC
    have i5 : C.entries = l := by simpa using i5
    have hf : C.findSize = (r, c) := by
      unfold Coo.findSize
      rw [i4, i2, i3]
      rfl
    exact C108_coo intMax C i1 (by rw [hf]; exact hr) (by rw [hf]; exact hc) (by rw [i5]; exact hn)

theorem length_expand (base : Int) (symmetric : Bool) (l : List (Int × Int × α)) : (l.flatMap (expand base symmetric)).length ≤ 2 * l.length := by
  induction l with
  | nil => simp
  | cons e l ih =>
    rw [List.flatMap_cons, List.length_append, List.length_cons]
    have : (expand base symmetric e).length ≤ 2 := by
      unfold expand
      split <;> simp
    omega

/-- Numbers that fit, and can be counted. -/
def Fits32 (i : Int) : Prop := -intMax - 1 ≤ i ∧ i < intMax - 1

theorem Fits32.inInt {i : Int} (h : Fits32 i) : inInt i = true := decide_eq_true ⟨h.1, by have := h.2; omega⟩

theorem countable_expand {l : List (Int × Int × α)} (h : ∀ e ∈ l, Fits32 e.1 ∧ Fits32 e.2.1) (symmetric : Bool) : ∀ e ∈ l.flatMap (expand 0 symmetric), Countable32 e := by
  intro x hx
  obtain ⟨e, he, hx⟩ := List.mem_flatMap.mp hx
  have h1 := (h e he).1.2
  have h2 := (h e he).2.2
  unfold expand at hx
  rw [List.mem_cons] at hx
  rcases hx with rfl | hx
  · exact ⟨by simp only; omega, by simp only; omega⟩
  · split at hx
    · rw [List.mem_singleton] at hx
      subst hx
      exact ⟨by simp only; omega, by simp only; omega⟩
    · cases hx

/-- **C133.**  The readers of lists of entries read the same matrix as with unbounded integers if every number `v` in the list has
`-2 ^ 31 ≤ v < 2 ^ 31 - 2` and there are at most `2 ^ 30 - 1` lines. -/
theorem C133_lists [AddMonoid R] [One R] (F : Fmt R) (t : Text) (symmetric : Bool) :
    ((∀ e ∈ readAll (step2 intFmt intFmt) ⟨t, false⟩, Fits32 e.1 ∧ Fits32 e.2) → 2 * ((readAll (step2 intFmt intFmt) ⟨t, false⟩).length : Int) ≤ intMax →
      (readAdjList32 (some t) symmetric : Res (Csr R)) = readAdjList (some t) symmetric) ∧
    ((∀ e ∈ readAll (step3 intFmt F) ⟨t, false⟩, Fits32 e.1 ∧ Fits32 e.2.1) → 2 * ((readAll (step3 intFmt F) ⟨t, false⟩).length : Int) ≤ intMax →
      readCooList32 F (some t) symmetric = readCooList F (some t) symmetric) := by
  constructor
  · intro h hn
    unfold readAdjList32 readAdjList openIn
    simp only [ok_bind]
    rw [(C133_loop F _).2.1, takeWhile_all (fun e he => by rw [(h e he).1.inInt, (h e he).2.inInt]; rfl)]
    rw [foldlM_congr_mem _ (f := fun C (e : Int × Int) => addEntry32 0 symmetric C (e.1, e.2, (1 : R))) (g := fun C (e : Int × Int) => addEntry 0 symmetric C (e.1, e.2, (1 : R))) (fun e he C => addEntry32_eq symmetric
      (by have := (h e he).1; unfold Fits32 at this; simp only; omega) (by have := (h e he).1; unfold Fits32 at this; simp only; omega)
      (by have := (h e he).2; unfold Fits32 at this; simp only; omega) (by have := (h e he).2; unfold Fits32 at this; simp only; omega) C)]
    rw [foldlM_addAll (fun C (e : Int × Int) => addEntry_eq 0 symmetric C (e.1, e.2, (1 : R)))]
    have hm : (readAll (step2 intFmt intFmt) ⟨t, false⟩).flatMap (fun e => expand 0 symmetric (e.1, e.2, (1 : R)))
        = ((readAll (step2 intFmt intFmt) ⟨t, false⟩).map (fun e => (e.1, e.2, (1 : R)))).flatMap (expand 0 symmetric) := by rw [List.flatMap_map]
    rw [hm]
    refine finish_new _ (countable_expand (fun e he => ?_) symmetric) ?_
    · obtain ⟨e', he', rfl⟩ := List.mem_map.mp he
      exact h e' he'
    · have := length_expand 0 symmetric ((readAll (step2 intFmt intFmt) ⟨t, false⟩).map (fun e => (e.1, e.2, (1 : R))))
      rw [List.length_map] at this
      omega
  · intro h hn
    unfold readCooList32 readCooList openIn
    simp only [ok_bind]
    rw [(C133_loop F _).2.2, takeWhile_all (fun e he => by rw [(h e he).1.inInt, (h e he).2.inInt]; rfl)]
    rw [foldlM_congr_mem _ (g := fun C e => addEntry 0 symmetric C e) (fun e he C => addEntry32_eq symmetric
      (by have := (h e he).1; unfold Fits32 at this; omega) (by have := (h e he).1; unfold Fits32 at this; omega)
      (by have := (h e he).2; unfold Fits32 at this; omega) (by have := (h e he).2; unfold Fits32 at this; omega) C)]
    rw [foldlM_addAll (fun C e => addEntry_eq 0 symmetric C e)]
    refine finish_new _ (countable_expand h symmetric) ?_
    have := length_expand 0 symmetric (readAll (step3 intFmt F) ⟨t, false⟩)
    omega

/-- **C133.**  The same for `ReadGraphList`, with at most `2 ^ 29 - 1` edges. -/
theorem C133_graph [Ring R] (t : Text) (h : ∀ e ∈ readAll (step2 intFmt intFmt) ⟨t, false⟩, Fits32 e.1 ∧ Fits32 e.2)
    (hn : 4 * ((readAll (step2 intFmt intFmt) ⟨t, false⟩).length : Int) ≤ intMax) : (readGraphList32 (some t) : Res (Csr R)) = readGraphList (some t) := by
  unfold readGraphList32 readGraphList openIn
  simp only [ok_bind]
  rw [(C133_loop intFmt _).2.1, takeWhile_all (fun e he => by rw [(h e he).1.inInt, (h e he).2.inInt]; rfl), foldlM_addAll (fun C (e : Int × Int) => addEdge_eq (R := R) C e)]
  refine finish_new _ (fun x hx => ?_) ?_
  · obtain ⟨e, he, hx⟩ := List.mem_flatMap.mp hx
    have h1 := (h e he).1.2
    have h2 := (h e he).2.2
    unfold edgeEntries at hx
    split at hx
    · simp only [List.mem_cons, List.not_mem_nil, or_false] at hx
      rcases hx with rfl | rfl | rfl | rfl <;> exact ⟨by assumption, by assumption⟩
    · cases hx
  · have : ∀ l : List (Int × Int), (l.flatMap (edgeEntries (R := R))).length ≤ 4 * l.length := by
      intro l
      induction l with
      | nil => simp
      | cons e l ih =>
        rw [List.flatMap_cons, List.length_append, List.length_cons]
        have : (edgeEntries (R := R) e).length ≤ 4 := by
          unfold edgeEntries
          split <;> simp
        omega
    have := this (readAll (step2 intFmt intFmt) ⟨t, false⟩)
    omega

/-! ## Where a list ends -/

theorem int32_roundTrips {i : Int} (h : inInt i = true) : int32.RoundTrips i := by
  have hi := intFmt_roundTrips i
  refine ⟨hi.first, fun r hr => ?_⟩
  have hb : scanInt (showInt i ++ r) = (some i, r) := hi.back r hr
  show (match scanInt (showInt i ++ r) with
    | (some v, r) => (if inInt v then some v else none, r)
    | (none, r) => (none, r)) = _
  rw [hb]
  simp [h]

theorem step1_int32_out {big : Int} (h : inInt big = false) {ws r : Text} (hw : AllSpace ws) (hr : Ends r) : step1 int32 ⟨ws ++ (showInt big ++ r), false⟩ = none := by
  have := step1_put (intFmt_roundTrips big) hw hr
  rw [step1_int32, ← List.append_assoc]
  rw [show intFmt.put big = showInt big from rfl] at this
  rw [this]
  simp [Option.filter, h]

/-- **C133.**  A list of entries ends, without any sign of it, at a line that starts with a number that does not fit an `int`: the matrix is that of the
lines before it, whatever follows. -/
theorem C133_stop [Zero R] [Add R] [One R] (F : Fmt R) (big : Int) (hbig : inInt big = false) (rest : Text) (hr : Ends rest) (symmetric : Bool) :
    (∀ l : List (Int × Int), (∀ e ∈ l, inInt e.1 = true ∧ inInt e.2 = true) →
      (readAdjList32 (some (l.flatMap (fun e => showInt e.1 ++ [' '] ++ showInt e.2 ++ ['\n']) ++ (showInt big ++ rest))) symmetric : Res (Csr R)) =
        readAdjList32 (some (l.flatMap (fun e => showInt e.1 ++ [' '] ++ showInt e.2 ++ ['\n']))) symmetric) ∧
    (∀ l : List (Int × Int × R), (∀ e ∈ l, inInt e.1 = true ∧ inInt e.2.1 = true ∧ F.RoundTrips e.2.2) →
      readCooList32 F (some (l.flatMap (fun e => showInt e.1 ++ [' '] ++ showInt e.2.1 ++ [' '] ++ F.put e.2.2 ++ ['\n']) ++ (showInt big ++ rest))) symmetric =
        readCooList32 F (some (l.flatMap (fun e => showInt e.1 ++ [' '] ++ showInt e.2.1 ++ [' '] ++ F.put e.2.2 ++ ['\n']))) symmetric) := by
  constructor
  · intro l hl
    have e1 := readAll_lines (fun e : Int × Int => showInt e.1 ++ [' '] ++ showInt e.2) l (step := step2 int32 int32)
      (fun x hx ws r hw hr => step2_put (int32_roundTrips (hl x hx).1) (int32_roundTrips (hl x hx).2) hw hr) (fun ws hw => step2_space _ _ hw)
    have hlen := length_lines (fun e : Int × Int => showInt e.1 ++ [' '] ++ showInt e.2) l
    have e2 := readLoop_tail (fun e : Int × Int => showInt e.1 ++ [' '] ++ showInt e.2) l (showInt big ++ rest) (step := step2 int32 int32)
      (fun x hx ws r hw hr => step2_put (int32_roundTrips (hl x hx).1) (int32_roundTrips (hl x hx).2) hw hr)
      (fun ws hw => by unfold step2; rw [step1_int32_out hbig hw hr])
      ((l.flatMap (fun e => showInt e.1 ++ [' '] ++ showInt e.2 ++ ['\n']) ++ (showInt big ++ rest)).length + 1) (by simp only [List.length_append] at hlen ⊢; omega) [] AllSpace.nil
    unfold readAdjList32 openIn
    simp only [ok_bind]
    rw [e1]
    unfold readAll
    rw [show ∀ t : Text, ([] : Text) ++ t = t from fun _ => rfl] at e2
    rw [e2]
  · intro l hl
    have e1 := readAll_lines (fun e : Int × Int × R => showInt e.1 ++ [' '] ++ showInt e.2.1 ++ [' '] ++ F.put e.2.2) l (step := step3 int32 F)
      (fun x hx ws r hw hr => step3_put (int32_roundTrips (hl x hx).1) (int32_roundTrips (hl x hx).2.1) (hl x hx).2.2 hw hr) (fun ws hw => step3_space _ _ hw)
    have hlen := length_lines (fun e : Int × Int × R => showInt e.1 ++ [' '] ++ showInt e.2.1 ++ [' '] ++ F.put e.2.2) l
    have e2 := readLoop_tail (fun e : Int × Int × R => showInt e.1 ++ [' '] ++ showInt e.2.1 ++ [' '] ++ F.put e.2.2) l (showInt big ++ rest) (step := step3 int32 F)
      (fun x hx ws r hw hr => step3_put (int32_roundTrips (hl x hx).1) (int32_roundTrips (hl x hx).2.1) (hl x hx).2.2 hw hr)
      (fun ws hw => by unfold step3 step2; rw [step1_int32_out hbig hw hr])
      ((l.flatMap (fun e => showInt e.1 ++ [' '] ++ showInt e.2.1 ++ [' '] ++ F.put e.2.2 ++ ['\n']) ++ (showInt big ++ rest)).length + 1)
      (by simp only [List.length_append] at hlen ⊢; omega) [] AllSpace.nil
    unfold readCooList32 openIn
    simp only [ok_bind]
    rw [e1]
    unfold readAll
    rw [show ∀ t : Text, ([] : Text) ++ t = t from fun _ => rfl] at e2
    rw [e2]

theorem toSparseOn_new [Zero R] [Add R] (l : List (Int × Int × R)) (h0 : ∀ e ∈ l, 0 ≤ e.1 ∧ 0 ≤ e.2.1) (h : ∃ e ∈ l, e.1 ≥ intMax - 1 ∧ e.1 ≤ intMax ∨ e.2.1 = intMax) :
    (Coo.new.addAll l >>= fun C => C.toSparseOn (fit intMax)) = .error .undefinedBehaviour := by
  rw [addAll_ok l (Coo.new : Coo R) (fun e he => ⟨(h0 e he).1, (h0 e he).2, by simp [Coo.new]⟩), ok_bind]
  by_cases hM : ∃ e ∈ l, e.1 = intMax ∨ e.2.1 = intMax
  · exact (C108_coo_size intMax _ rfl (by simpa [Coo.new] using hM)).2
  · obtain ⟨e, he, hc⟩ := h
    have he1 : e.1 = intMax - 1 := by
      rcases hc with hc | hc
      · by_contra hne
        exact hM ⟨e, he, Or.inl (by omega)⟩
      · exact absurd ⟨e, he, Or.inr hc⟩ hM
    have ge : ∀ (l : List (Int × Int × R)) (m : Int × Int) (b : Int), (b ≤ m.1 ∨ ∃ e ∈ l, b ≤ e.1) →
        b ≤ (l.foldl (fun (m : Int × Int) e => (max m.1 e.1, max m.2 e.2.1)) m).1 := by
      intro l
      induction l with
      | nil =>
        rintro m b (h | ⟨e, he, _⟩)
        · exact h
        · cases he
      | cons a l ih =>
        intro m b h
        refine ih _ _ ?_
        rcases h with h | ⟨e, he, h⟩
        · exact Or.inl (h.trans (le_max_left _ _))
        · rcases List.mem_cons.mp he with rfl | he
          · exact Or.inl (h.trans (le_max_right _ _))
          · exact Or.inr ⟨e, he, h⟩
    have g := ge l (0, 0) (intMax - 1) (Or.inr ⟨e, he, he1.ge⟩)
    unfold Coo.toSparseOn Coo.findSizeOn
    simp only [Coo.new, List.nil_append, Bool.false_eq_true, if_false]
    generalize l.foldl (fun (m : Int × Int) e => (max m.1 e.1, max m.2 e.2.1)) (0, 0) = m at g ⊢
    by_cases h1 : -intMax - 1 ≤ m.1 + 1 ∧ m.1 + 1 ≤ intMax
    · rw [fit_ok h1.1 h1.2, ok_bind]
      by_cases h2 : -intMax - 1 ≤ m.2 + 1 ∧ m.2 + 1 ≤ intMax
      · rw [fit_ok h2.1 h2.2, ok_bind, ok_bind]
        simp only [fit_not (M := intMax) (x := m.1 + 1 + 1) (by omega)]
        split <;> rfl
      · rw [fit_not h2]
        rfl
    · rw [fit_not h1]
      rfl

/-- **C133.**  Row number `2147483646` or `2147483647`, or column number `2147483647`, fits an `int`, but the number of rows plus one, or of columns, does not: the
readers of lists are undefined. -/
theorem C133_count [Zero R] [Add R] [One R] (F : Fmt R) (t : Text) :
    ((∀ e ∈ readAll (step2 intFmt intFmt) ⟨t, false⟩, 0 ≤ e.1 ∧ e.1 ≤ intMax ∧ 0 ≤ e.2 ∧ e.2 ≤ intMax) →
      (∃ e ∈ readAll (step2 intFmt intFmt) ⟨t, false⟩, intMax - 1 ≤ e.1 ∨ e.2 = intMax) →
      (readAdjList32 (some t) false : Res (Csr R)) = .error .undefinedBehaviour) ∧
    ((∀ e ∈ readAll (step3 intFmt F) ⟨t, false⟩, 0 ≤ e.1 ∧ e.1 ≤ intMax ∧ 0 ≤ e.2.1 ∧ e.2.1 ≤ intMax) →
      (∃ e ∈ readAll (step3 intFmt F) ⟨t, false⟩, intMax - 1 ≤ e.1 ∨ e.2.1 = intMax) →
      readCooList32 F (some t) false = .error .undefinedBehaviour) := by
  have hin : ∀ i : Int, 0 ≤ i → i ≤ intMax → inInt i = true := fun i h0 h1 => decide_eq_true ⟨by unfold intMax; omega, h1⟩
  have hx : ∀ (l : List (Int × Int × R)), l.flatMap (expand 0 false) = l := by
    intro l
    induction l with
    | nil => rfl
    | cons e l ih => rw [List.flatMap_cons, ih]; simp [expand]
  constructor
  · intro h hc
    unfold readAdjList32 openIn
    simp only [ok_bind]
    rw [(C133_loop F _).2.1, takeWhile_all (fun e he => by rw [hin _ (h e he).1 (h e he).2.1, hin _ (h e he).2.2.1 (h e he).2.2.2]; rfl)]
    rw [foldlM_congr_mem _ (f := fun C (e : Int × Int) => addEntry32 0 false C (e.1, e.2, (1 : R))) (g := fun C (e : Int × Int) => addEntry 0 false C (e.1, e.2, (1 : R)))
      (fun e he C => addEntry32_eq false
      (by have := h e he; unfold intMax; simp only; omega) (by have := h e he; simp only; omega) (by have := h e he; unfold intMax; simp only; omega) (by have := h e he; simp only; omega) C)]
    rw [foldlM_addAll (fun C (e : Int × Int) => addEntry_eq 0 false C (e.1, e.2, (1 : R)))]
    have hm : (readAll (step2 intFmt intFmt) ⟨t, false⟩).flatMap (fun e => expand 0 false (e.1, e.2, (1 : R)))
        = ((readAll (step2 intFmt intFmt) ⟨t, false⟩).map (fun e => (e.1, e.2, (1 : R)))).flatMap (expand 0 false) := by rw [List.flatMap_map]
    rw [hm, hx]
    refine toSparseOn_new _ (fun e he => ?_) ?_
    · obtain ⟨e', he', rfl⟩ := List.mem_map.mp he
      exact ⟨(h e' he').1, (h e' he').2.2.1⟩
    · obtain ⟨e, he, hc⟩ := hc
      refine ⟨_, List.mem_map_of_mem he, ?_⟩
      rcases hc with hc | hc
      · exact Or.inl ⟨hc, (h e he).2.1⟩
      · exact Or.inr hc
  · intro h hc
    unfold readCooList32 openIn
    simp only [ok_bind]
    rw [(C133_loop F _).2.2, takeWhile_all (fun e he => by rw [hin _ (h e he).1 (h e he).2.1, hin _ (h e he).2.2.1 (h e he).2.2.2]; rfl)]
    rw [foldlM_congr_mem _ (g := fun C e => addEntry 0 false C e) (fun e he C => addEntry32_eq false
      (by have := h e he; unfold intMax; omega) (by have := h e he; omega) (by have := h e he; unfold intMax; omega) (by have := h e he; omega) C)]
    rw [foldlM_addAll (fun C e => addEntry_eq 0 false C e), hx]
    refine toSparseOn_new _ (fun e he => ⟨(h e he).1, (h e he).2.2.1⟩) ?_
    obtain ⟨e, he, hc⟩ := hc
    refine ⟨e, he, ?_⟩
    rcases hc with hc | hc
    · exact Or.inl ⟨hc, (h e he).2.1⟩
    · exact Or.inr hc

/-! ## Tables -/

/-- **C133.**  `ReadTable` gives the same as with unbounded integers if all numbers are from `-2 ^ 31` to `2 ^ 31 - 2` and there are at most `2 ^ 31 - 1` lines
and numbers. -/
theorem C133_table [One R] (t : Text)
    (h : ∀ line ∈ readAll getLine ⟨t, false⟩, ∀ i ∈ readAll (step1 intFmt) ⟨line, false⟩, -intMax - 1 ≤ i ∧ i < intMax)
    (hl : ((readAll getLine ⟨t, false⟩).length : Int) ≤ intMax)
    (hn : ((((readAll getLine ⟨t, false⟩).map (fun line => readAll (step1 intFmt) ⟨line, false⟩)).flatten).length : Int) ≤ intMax) :
    (readTable32 (some t) : Res (Csr R)) = readTable (some t) := by
  unfold readTable32 readTable openIn
  simp only [ok_bind]
  have e : (readAll getLine ⟨t, false⟩).map (fun line => readAll (step1 int32) ⟨line, false⟩) = (readAll getLine ⟨t, false⟩).map (fun line => readAll (step1 intFmt) ⟨line, false⟩) := by
    apply List.map_congr_left
    intro line hline
    rw [(C133_loop intFmt _).1, takeWhile_all]
    intro i hi
    have := h line hline i hi
    exact decide_eq_true ⟨this.1, by omega⟩
  rw [e, foldl_ptrs]
  have hp : (ptrs ((readAll getLine ⟨t, false⟩).map (fun line => readAll (step1 intFmt) ⟨line, false⟩))).map (fun k => castInt intMax k.toNat)
      = ptrs ((readAll getLine ⟨t, false⟩).map (fun line => readAll (step1 intFmt) ⟨line, false⟩)) := by
    conv_rhs => rw [← List.map_id (ptrs _)]
    apply List.map_congr_left
    intro k hk
    have hk2 : 0 ≤ k ∧ k ≤ (((readAll getLine ⟨t, false⟩).map (fun line => readAll (step1 intFmt) ⟨line, false⟩)).flatten).length := by
      obtain ⟨n, hn, rfl⟩ := List.mem_iff_getElem.mp hk
      rw [getElem_ptrs]
      refine ⟨by omega, ?_⟩
      have := ((List.take_prefix n ((readAll getLine ⟨t, false⟩).map (fun line => readAll (step1 intFmt) ⟨line, false⟩))).flatten).length_le
      omega
    rw [castInt_eq (by omega)]
    simp only [id]
    omega
  rw [hp]
  cases hm : (((readAll getLine ⟨t, false⟩).map (fun line => readAll (step1 intFmt) ⟨line, false⟩)).flatten).max? with
  | none => rfl
  | some m =>
    have hmem := List.max?_mem hm
    obtain ⟨l, hl1, hl2⟩ := List.mem_flatten.mp hmem
    obtain ⟨line, hline, rfl⟩ := List.mem_map.mp hl1
    have := h line hline m hl2
    simp only
    rw [fit_ok (by omega) (by omega), ok_bind]
    have hpl : (ptrs ((readAll getLine ⟨t, false⟩).map (fun line => readAll (step1 intFmt) ⟨line, false⟩))).length = (readAll getLine ⟨t, false⟩).length + 1 := by
      rw [length_ptrs, List.length_map]
    rw [hpl, castInt_eq (by omega)]
    congr 1
    omega

/-! ## Matrix Market -/

theorem extractInt_eq {s : IStream} {x : Option Int} {v : Int} (h : (extract intFmt s x).1 = some v) (hv : inInt v = true) : extractInt s x = extract intFmt s x := by
  have hv' := of_decide_eq_true hv
  unfold extractInt
  unfold extract at h ⊢
  by_cases hf : s.failed = true
  · rw [if_pos hf, if_pos hf]
  · rw [if_neg hf] at h ⊢
    rw [if_neg hf]
    cases hd : s.rest.dropWhile isSpace with
    | nil => rfl
    | cons c t =>
      rw [hd] at h
      simp only [intFmt] at h ⊢
      cases hs : scanInt (c :: t) with
      | mk w r =>
        rw [hs] at h
        cases w with
        | none => rfl
        | some w =>
          simp only [Option.some.injEq] at h ⊢
          subst h
          rw [hv]
          rw [min_eq_left hv'.2, max_eq_right hv'.1]
          rfl

theorem extractInt_nonneg {s : IStream} {x : Option Int} {v : Int} (h : (extract intFmt s x).1 = some v) (hv : 0 ≤ v) : ∃ w, (extractInt s x).1 = some w ∧ 0 ≤ w := by
  by_cases hin : inInt v = true
  · rw [extractInt_eq h hin]
    exact ⟨v, h, hv⟩
  · unfold extractInt
    unfold extract at h
    by_cases hf : s.failed = true
    · rw [if_pos hf] at h ⊢
      exact ⟨v, h, hv⟩
    · rw [if_neg hf] at h ⊢
      cases hd : s.rest.dropWhile isSpace with
      | nil =>
        rw [hd] at h
        exact ⟨v, h, hv⟩
      | cons c t =>
        rw [hd] at h
        simp only [intFmt] at h ⊢
        cases hs : scanInt (c :: t) with
        | mk w r =>
          rw [hs] at h
          cases w with
          | none => exact ⟨0, rfl, le_rfl⟩
          | some w =>
            simp only [Option.some.injEq] at h
            subst h
            exact ⟨_, rfl, (le_min hv (by decide)).trans (le_max_right _ _)⟩

theorem useVar_ok {x : Option α} {v : α} (h : useVar x = .ok v) : x = some v := by
  cases x with
  | none => cases h
  | some w => cases h; rfl

theorem mtxSize32_eq {line : Text} {C : Coo α} (h : mtxSize line = .ok C) (hr : C.rows ≤ intMax) (hc : C.cols ≤ intMax) : mtxSize32 line = .ok C := by
  unfold mtxSize at h
  simp only [bind_eq_ok] at h
  obtain ⟨r, e1, c, e2, C', e3, z, e4, _, e5, h⟩ := h
  have e1 := useVar_ok e1
  have e2 := useVar_ok e2
  have e4 := useVar_ok e4
  cases h
  have ho : 0 ≤ r ∧ 0 ≤ c ∧ C = ⟨r, c, true, []⟩ := by
    unfold Coo.ofSize at e3
    simp only [bind_eq_ok] at e3
    obtain ⟨_, a1, _, a2, a3⟩ := e3
    cases a3
    exact ⟨cassert_ok_iff.mp a1, cassert_ok_iff.mp a2, rfl⟩
  obtain ⟨hr0, hc0, rfl⟩ := ho
  have hz0 : 0 ≤ z := cassert_ok_iff.mp e5
  have d1 := extractInt_eq e1 (decide_eq_true ⟨by unfold intMax; omega, hr⟩)
  have d2 := extractInt_eq e2 (decide_eq_true ⟨by unfold intMax; omega, hc⟩)
  obtain ⟨w, d3, hw⟩ := extractInt_nonneg e4 hz0
  unfold mtxSize32
  simp only [d1, d2, d3, e1, e2, useVar, ok_bind, e3, cassert_true (show w ≥ 0 from hw)]

/-- The numbers of a list of entries that was accepted. -/
theorem addAll_bounds {r c : Int} {l : List (Int × Int × α)} {C : Coo α} (hr : 0 ≤ r) (hc : 0 ≤ c) (h : (⟨r, c, true, []⟩ : Coo α).addAll l = .ok C) :
    C.rows = r ∧ C.cols = c ∧ ∀ e ∈ l, 0 ≤ e.1 ∧ e.1 < r ∧ 0 ≤ e.2.1 ∧ e.2.1 < c := by
  obtain ⟨i1, i2, i3, i4, i5⟩ := Coo.addAll_inv ⟨hr, hc, by simp, by simp⟩ h
  have i5 : C.entries = l := by simpa using i5
  refine ⟨i2, i3, fun e he => ?_⟩
  rw [← i5] at he
  have a := i1.entry_nonneg e he
  have b := i1.entry_lt i4 e he
  rw [i2, i3] at b
  exact ⟨a.1, b.1, a.2, b.2⟩

/-- **C133.**  A Matrix Market file that is read with unbounded integers is read the same with 32 bits if the matrix has fewer than `2 ^ 31 - 1` rows and at most
as many columns and there are at most `2 ^ 30 - 1` entries.  The declared number of entries does not matter. -/
theorem C133_mtx [AddMonoid R] [One R] (F : Fmt R) (t : Text) (A : Csr R) (hr : A.rows < intMax) (hc : A.cols ≤ intMax) :
    (readMtx F (some t) = .ok A → 2 * ((readAll (step3 intFmt F) (mtxHeader (t.length + 1) false ⟨t, false⟩).2.2).length : Int) ≤ intMax → readMtx32 F (some t) = .ok A) ∧
    (readMtxList (some t) = .ok A → 2 * ((readAll (step2 intFmt intFmt) (mtxHeader (t.length + 1) false ⟨t, false⟩).2.2).length : Int) ≤ intMax →
      readMtxList32 (some t) = .ok A) := by
  have key : ∀ (symmetric : Bool) (line : Text) (C0 : Coo R) (l : List (Int × Int × R)), mtxSize line = .ok C0 → 2 * (l.length : Int) ≤ intMax →
      (l.foldlM (fun C e => addEntry 1 symmetric C e) C0 >>= fun C => C.toSparse) = .ok A →
      mtxSize32 line = .ok C0 ∧ (∀ e ∈ l, inInt e.1 = true ∧ inInt e.2.1 = true) ∧ (l.foldlM (fun C e => addEntry32 1 symmetric C e) C0 >>= fun C => C.toSparseOn (fit intMax)) = .ok A := by
    intro symmetric line C0 l h0 hn h
    obtain ⟨r, c, hr0, hc0, rfl⟩ : ∃ r c, 0 ≤ r ∧ 0 ≤ c ∧ C0 = ⟨r, c, true, []⟩ := by
      unfold mtxSize at h0
      simp only [bind_eq_ok] at h0
      obtain ⟨r, -, c, -, C', e3, z, -, -, -, h0⟩ := h0
      cases h0
      unfold Coo.ofSize at e3
      simp only [bind_eq_ok] at e3
      obtain ⟨_, a1, _, a2, a3⟩ := e3
      cases a3
      exact ⟨r, c, cassert_ok_iff.mp a1, cassert_ok_iff.mp a2, rfl⟩
    rw [foldlM_addAll (fun C e => addEntry_eq 1 symmetric C e)] at h
    have hlen := length_expand 1 symmetric l
    have hA : A.rows = r ∧ A.cols = c := by
      have h' := h
      rw [bind_eq_ok] at h'
      obtain ⟨C, h1, h2⟩ := h'
      obtain ⟨i1, i2, i3, i4, i5⟩ := Coo.addAll_inv ⟨hr0, hc0, by simp, by simp⟩ h1
      have hf : C.findSize = (r, c) := by
        unfold Coo.findSize
        rw [i4, i2, i3]
        rfl
      obtain ⟨B, b1, b2, b3, b4, b5, b6⟩ := C17_toSparse C i1
      rw [h2] at b1
      cases b1
      rw [hf] at *
      constructor <;> assumption
    have hb : ∀ e ∈ l, 1 ≤ e.1 ∧ e.1 ≤ r ∧ 1 ≤ e.2.1 ∧ e.2.1 ≤ c := by
      rw [bind_eq_ok] at h
      obtain ⟨C, h1, -⟩ := h
      have := (addAll_bounds hr0 hc0 h1).2.2
      intro e he
      have := this (e.1 - 1, e.2.1 - 1, e.2.2) (List.mem_flatMap.mpr ⟨e, he, by simp [expand]⟩)
      simp only at this
      omega
    refine ⟨mtxSize32_eq h0 (by simp only; omega) (by simp only; omega), fun e he => ?_, ?_⟩
    · have := hb e he
      exact ⟨decide_eq_true ⟨by unfold intMax; omega, by omega⟩, decide_eq_true ⟨by unfold intMax; omega, by omega⟩⟩
    · rw [foldlM_congr_mem _ (g := fun C e => addEntry 1 symmetric C e) (fun e he C => addEntry32_eq symmetric
        (by have := hb e he; unfold intMax; omega) (by have := hb e he; omega) (by have := hb e he; unfold intMax; omega) (by have := hb e he; omega) C)]
      rw [foldlM_addAll (fun C e => addEntry_eq 1 symmetric C e), finish_size r c (by omega) (by omega) hr0 hc0 _ (by omega)]
      exact h
  constructor
  · intro h hn
    unfold readMtx openIn at h
    simp only [ok_bind] at h
    rw [bind_eq_ok] at h
    obtain ⟨C0, h0, h⟩ := h
    obtain ⟨k1, k2, k3⟩ := key _ _ _ _ h0 hn h
    unfold readMtx32 openIn
    simp only [ok_bind]
    rw [k1, ok_bind, (C133_loop F _).2.2, takeWhile_all (fun e he => by rw [(k2 e he).1, (k2 e he).2]; rfl)]
    exact k3
  · intro h hn
    unfold readMtxList openIn at h
    simp only [ok_bind] at h
    rw [bind_eq_ok] at h
    obtain ⟨C0, h0, h⟩ := h
    have hm : ∀ (f : Coo R → Int × Int × R → Res (Coo R)) (l : List (Int × Int)), l.foldlM (fun C e => f C (e.1, e.2, 1)) C0 = (l.map (fun e => (e.1, e.2, (1 : R)))).foldlM f C0 := by
      intro f l
      rw [List.foldlM_map]
    rw [hm] at h
    obtain ⟨k1, k2, k3⟩ := key _ _ _ _ h0 (by rw [List.length_map]; exact hn) h
    unfold readMtxList32 openIn
    simp only [ok_bind]
    rw [k1, ok_bind, (C133_loop F _).2.1, takeWhile_all (fun e he => by
      have := k2 _ (List.mem_map_of_mem he)
      rw [this.1, this.2]; rfl), hm]
    exact k3

/-- **C133.**  A number of rows that does not fit an `int` leaves the number of columns without a value: undefined. -/
theorem C133_mtx_rows (big : Int) (hbig : inInt big = false) (rest : Text) (hr : Ends rest) : (mtxSize32 (showInt big ++ rest) : Res (Coo α)) = .error .undefinedBehaviour := by
  have hb : scanInt (showInt big ++ rest) = (some big, rest) := (intFmt_roundTrips big).back rest hr
  obtain ⟨c, u, hc, hs⟩ := (intFmt_roundTrips big).first
  have hc : showInt big = c :: u := hc
  have e1 : extractInt ⟨showInt big ++ rest, false⟩ none = (some (max (-intMax - 1) (min big intMax)), ⟨rest, true⟩) := by
    unfold extractInt
    have hd : (showInt big ++ rest).dropWhile isSpace = showInt big ++ rest := by rw [hc]; simp [hs]
    simp only [Bool.false_eq_true, if_false, hd]
    rw [hc] at hb ⊢
    rw [List.cons_append] at hb ⊢
    simp only [hb, hbig]
    rfl
  unfold mtxSize32
  simp only [e1]
  rfl

/-! ## CSR files -/

theorem intMax_sizeEnd : (intMax : Int) + 1 < sizeEnd := by
  unfold intMax sizeEnd
  omega

theorem extractSize_eq {s : IStream} {v : Int} (h : (extract intFmt s none).1 = some v) (h0 : 0 ≤ v) (h1 : v < sizeEnd) :
    (extractSize s none).1 = some v.toNat ∧ (extractSize s none).2 = (extract intFmt s none).2 := by
  unfold extractSize
  unfold extract at h ⊢
  by_cases hf : s.failed = true
  · rw [if_pos hf] at h
    cases h
  · rw [if_neg hf] at h ⊢
    rw [if_neg hf]
    cases hd : s.rest.dropWhile isSpace with
    | nil =>
      rw [hd] at h
      cases h
    | cons c t =>
      rw [hd] at h
      simp only [intFmt] at h ⊢
      cases hs : scanInt (c :: t) with
      | mk w r =>
        rw [hs] at h
        cases w with
        | none =>
          simp only [Option.some.injEq] at h ⊢
          subst h
          exact ⟨rfl, trivial⟩
        | some w =>
          simp only [Option.some.injEq] at h ⊢
          subst h
          rw [if_pos (by omega), Int.emod_eq_of_lt h0 h1]
          exact ⟨rfl, rfl⟩

theorem extract_some (s : IStream) (y : Int) : ∃ v, (extract intFmt s (some y)).1 = some v := by
  unfold extract
  split
  · exact ⟨_, rfl⟩
  · split
    · exact ⟨_, rfl⟩
    · split <;> exact ⟨_, rfl⟩

theorem readIntoInt_eq (n : Nat) (s : IStream) (h : ∀ x ∈ (readInto intFmt n s).1, inInt x = true) : readIntoInt n s = readInto intFmt n s := by
  induction n generalizing s with
  | zero => rfl
  | succ n ih =>
    unfold readInto at h
    obtain ⟨v, hv⟩ := extract_some s 0
    have e : extractInt s (some 0) = extract intFmt s (some 0) := extractInt_eq hv (h v (by simp [hv]))
    unfold readIntoInt readInto
    simp only [e]
    rw [ih _ (fun x hx => h x (by simp [hx]))]

theorem length_readInto [Zero α] (F : Fmt α) (n : Nat) (s : IStream) : (readInto F n s).1.length = n := by
  induction n generalizing s with
  | zero => rfl
  | succ n ih =>
    unfold readInto
    simp [ih]

theorem ofArrays_fields {p ix : List Int} {d : List α} {r c : Int} {A : Csr α} (h : Csr.ofArrays p ix d r c = .ok A) :
    A = ⟨r, c, p, ix, d⟩ ∧ 0 ≤ r ∧ 0 ≤ c ∧ (p.length : Int) = r + 1 ∧ ix.length = d.length := by
  unfold Csr.ofArrays at h
  simp only [bind_eq_ok] at h
  obtain ⟨_, a1, _, a2, _, a3, _, a4, p0, a5, _, a6, h⟩ := h
  have hA : A = ⟨r, c, p, ix, d⟩ := by
    split at h
    · simp only [bind_eq_ok] at h
      obtain ⟨_, _, _, _, h⟩ := h
      cases h
      rfl
    · cases h
      rfl
  exact ⟨hA, cassert_ok_iff.mp a1, cassert_ok_iff.mp a2, cassert_ok_iff.mp a3, cassert_ok_iff.mp a4⟩

theorem alloc_ok {mem n : Nat} (h : n ≤ mem) : alloc mem n = .ok () := if_pos h

/-- **C133.**  A CSR file that is read with unbounded integers is read the same with 32 and 64 bits if all its numbers fit an `int` and there is memory for
the arrays. -/
theorem C133_csr [Zero α] (mem : Nat) (F : Fmt α) (t : Text) (A : Csr α) (h : readCsr F (some t) = .ok A) (hr : A.rows ≤ intMax) (hc : A.cols ≤ intMax)
    (hp : ∀ x ∈ A.indptr, inInt x = true) (hi : ∀ x ∈ A.indices, inInt x = true) (hm : A.indptr.length ≤ mem) (hm2 : A.indices.length ≤ mem) :
    readCsr32 mem F (some t) = .ok A := by
  unfold readCsr openIn at h
  simp only [ok_bind] at h
  simp only [bind_eq_ok] at h
  obtain ⟨r, e1, c, e2, h⟩ := h
  have e1 := useVar_ok e1
  have e2 := useVar_ok e2
  by_cases hneg : r < 0 ∨ c < 0
  · rw [if_pos hneg] at h
    cases h
  rw [if_neg hneg, bind_eq_ok] at h
  obtain ⟨nnz, e3, h⟩ := h
  by_cases hn : nnz < 0
  · rw [if_pos hn] at h
    cases h
  rw [if_neg hn] at h
  obtain ⟨rfl, -, -, hpl, -⟩ := ofArrays_fields h
  simp only at hr hc hp hi hm hm2
  rw [length_readInto] at hm hm2
  have hse := intMax_sizeEnd
  obtain ⟨d1, d2⟩ := extractSize_eq e1 (by omega) (by omega)
  have d3 := extractSize_eq (s := (extractSize ⟨t, false⟩ none).2) (v := c) (by rw [d2]; exact e2) (by omega) (by omega)
  have hl : lastOf (readInto intFmt (r.toNat + 1) (extract intFmt (extract intFmt ⟨t, false⟩ none).2 none).2).1 = .ok nnz := by
    have hlen := length_readInto intFmt (r.toNat + 1) (extract intFmt (extract intFmt ⟨t, false⟩ none).2 none).2
    generalize (readInto intFmt (r.toNat + 1) (extract intFmt (extract intFmt ⟨t, false⟩ none).2 none).2).1 = p at e3 hlen
    unfold lastOf
    rw [List.getLast?_eq_getElem?]
    have : rd p ((p.length : Int) - 1) = rd p ((p.length - 1 : Nat) : Int) := by congr 1; omega
    rw [this, rd_nat (by omega), Except.ok.injEq] at e3
    rw [List.getElem?_eq_getElem (by omega), e3]
  have u1 : useVar (extractSize ⟨t, false⟩ none).1 = .ok r.toNat := by rw [d1]; rfl
  have u2 : useVar (extractSize (extractSize ⟨t, false⟩ none).2 none).1 = .ok c.toNat := by rw [d3.1]; rfl
  have u3 : (extractSize (extractSize ⟨t, false⟩ none).2 none).2 = (extract intFmt (extract intFmt ⟨t, false⟩ none).2 none).2 := by rw [d3.2, d2]
  unfold readCsr32 openIn
  clear d1 d2 d3
  generalize sizeEnd = E at *
  have hmod : (r.toNat + 1) % E = r.toNat + 1 := Nat.mod_eq_of_lt (by omega)
  simp only [ok_bind, u1]
  rw [hmod, alloc_ok hm, ok_bind, u3, readIntoInt_eq _ _ hp, hl, ok_bind, if_neg hn, alloc_ok hm2, ok_bind, readIntoInt_eq _ _ hi, u2, ok_bind,
    castInt_eq (by omega), castInt_eq (by omega)]
  rw [Int.toNat_of_nonneg (by omega), Int.toNat_of_nonneg (by omega)]
  exact h

/-- **C133.**  What `WriteCSR` writes is read back exactly on a machine with 32-bit `int`, if sizes and number of entries fit and there is memory. -/
theorem C133_csr_roundTrip [Zero α] (mem : Nat) (F : Fmt α) (A : Csr α) (hA : A.WF) (h : ∀ x ∈ A.data, F.RoundTrips x) (hr : A.rows ≤ intMax) (hc : A.cols ≤ intMax)
    (hn : (A.data.length : Int) ≤ intMax) (hm : A.rows + 1 ≤ mem) (hm2 : A.data.length ≤ mem) : ∃ t, writeCsr F A true = .ok t ∧ readCsr32 mem F (some t) = .ok A := by
  obtain ⟨t, h1, h2⟩ := C51_csr F A hA h
  have hlen := hA.indptr_len
  have hi := hA.indices_len
  refine ⟨t, h1, C133_csr mem F t A h2 hr hc (fun x hx => ?_) (fun x hx => ?_) (by omega) (by omega)⟩
  · have b : 0 ≤ x ∧ x ≤ A.data.length := by
      obtain ⟨n, rs, hn, hrs, rfl⟩ := hA.exists_rows
      have hx : x ∈ ptrs rs := hx
      obtain ⟨k, hk, rfl⟩ := List.mem_iff_getElem.mp hx
      rw [getElem_ptrs]
      have := ((List.take_prefix k rs).flatten).length_le
      simp only [Csr.ofRows, List.length_map]
      omega
    exact decide_eq_true ⟨by unfold intMax; omega, by omega⟩
  · have b := hA.cols_ok x hx
    exact decide_eq_true ⟨by unfold intMax; omega, by omega⟩

/-- **C133.**  A CSR file whose first number is `-1`, `2 ^ 64 - 1`, or too large for a `size_t`: the number of row pointers `rows + 1` is zero and
`indptr.back()` is undefined, whatever follows and however much memory there is. -/
theorem C133_csr_wrap [Zero α] (mem : Nat) (F : Fmt α) (v : Int) (h : v = -1 ∨ v = sizeEnd - 1 ∨ sizeEnd ≤ v.natAbs) (rest : Text) (hr : Ends rest) :
    readCsr32 mem F (some (showInt v ++ rest)) = .error .undefinedBehaviour := by
  have hb : scanInt (showInt v ++ rest) = (some v, rest) := (intFmt_roundTrips v).back rest hr
  obtain ⟨c, u, hc, hs⟩ := (intFmt_roundTrips v).first
  have hc : showInt v = c :: u := hc
  have e1 : (extractSize ⟨showInt v ++ rest, false⟩ none).1 = some (sizeEnd - 1) := by
    unfold extractSize
    have hd : (showInt v ++ rest).dropWhile isSpace = showInt v ++ rest := by rw [hc]; simp [hs]
    simp only [Bool.false_eq_true, if_false, hd]
    rw [hc] at hb ⊢
    rw [List.cons_append] at hb ⊢
    simp only [hb]
    rcases h with rfl | rfl | h
    · rw [if_pos (by unfold sizeEnd; omega)]
      have : ((-1 : Int) % (sizeEnd : Int)).toNat = sizeEnd - 1 := by unfold sizeEnd; omega
      rw [this]
    · rw [if_pos (by unfold sizeEnd; omega)]
      have : (((sizeEnd : Int) - 1) % (sizeEnd : Int)).toNat = sizeEnd - 1 := by unfold sizeEnd; omega
      rw [this]
    · rw [if_neg (by omega)]
  unfold readCsr32 openIn
  simp only [ok_bind, e1, useVar]
  have : (sizeEnd - 1 + 1) % sizeEnd = 0 := by unfold sizeEnd; omega
  rw [this, alloc_ok (Nat.zero_le _)]
  rfl

/-- **C133.**  More rows than there is memory for: the vector of row pointers throws. -/
theorem C133_csr_memory [Zero α] (mem : Nat) (F : Fmt α) (v : Int) (h0 : 0 ≤ v) (h : v + 1 < sizeEnd) (hm : (mem : Int) < v + 1) (rest : Text) (hr : Ends rest) :
    readCsr32 mem F (some (showInt v ++ rest)) = .error .threw := by
  have e := extract_put (intFmt_roundTrips v) (ws := []) AllSpace.nil hr none
  rw [List.nil_append, show intFmt.put v = showInt v from rfl] at e
  obtain ⟨d1, d2⟩ := extractSize_eq (s := ⟨showInt v ++ rest, false⟩) (v := v) (by rw [e]) h0 (by omega)
  unfold readCsr32 openIn
  simp only [ok_bind, d1, useVar]
  have hmod : (v.toNat + 1) % sizeEnd = v.toNat + 1 := Nat.mod_eq_of_lt (by omega)
  have : alloc mem ((v.toNat + 1) % sizeEnd) = .error .threw := if_neg (by omega)
  rw [this]
  rfl

/-! ## Binary files -/

/-- **C133.**  Binary files: a matrix or a vector that is read with unbounded integers is read the same if rows and columns fit an `int` and there is memory. -/
theorem C133_binary [Zero α] (mem : Nat) (P : Rep α) (t : List Byte) :
    (∀ A, readBinaryMat P (some t) = .ok A → A.rows ≤ intMax → A.cols ≤ intMax → A.indptr.length ≤ mem → A.indices.length ≤ mem → readBinaryMat64 mem P (some t) = .ok A) ∧
    (∀ v, readBinaryVec P (some t) = .ok v → v.length ≤ mem → readBinaryVec64 mem P (some t) = .ok v) := by
  have len : ∀ {β : Type} [Zero β] (Q : Rep β) (n : Nat) (s : BStream) (x : List β × BStream), readArr Q n s = .ok x → x.1.length = n := by
    intro β _ Q n s x h
    unfold readArr at h
    simp only [bind_eq_ok] at h
    obtain ⟨_, _, h⟩ := h
    cases h
    have : ∀ (n : Nat) (b : List Byte), (decodeArr Q n b).length = n := by
      intro n
      induction n with
      | zero => intro b; rfl
      | succ n ih => intro b; simp [decodeArr, ih]
    exact this _ _
  constructor
  · intro A h hr hc hm hm2
    unfold readBinaryMat openBin at h
    simp only [ok_bind] at h
    simp only [bind_eq_ok] at h
    obtain ⟨r, e1, c, e2, z, e3, p, e4, ix, e5, dt, e6, h⟩ := h
    obtain ⟨rfl, -, -, hpl, -⟩ := ofArrays_fields h
    simp only at hr hc hm hm2
    have l4 := len _ _ _ _ e4
    have l5 := len _ _ _ _ e5
    have hse := intMax_sizeEnd
    unfold readBinaryMat64 openBin
    generalize sizeEnd = E at *
    have hmod : (r + 1) % E = r + 1 := Nat.mod_eq_of_lt (by omega)
    simp only [ok_bind, e1]
    rw [hmod, alloc_ok (by omega), ok_bind, e3, ok_bind, alloc_ok (by omega), ok_bind, e4, ok_bind, e5, ok_bind, e6, ok_bind, e2, ok_bind, castInt_eq hr, castInt_eq hc]
    exact h
  · intro v h hm
    unfold readBinaryVec openBin at h
    simp only [ok_bind] at h
    rw [bind_eq_ok] at h
    obtain ⟨x, h1, h2⟩ := h
    cases h2
    have l := len _ _ _ _ h1
    unfold readBinaryVec64 openBin
    simp only [ok_bind]
    rw [alloc_ok (by omega), ok_bind, h1, ok_bind]

/-- **C133.**  A binary matrix with `2 ^ 64 - 1` for the number of rows: `&indptr[0]` of an empty vector.  A vector whose length is more than there is memory for
throws, whatever follows. -/
theorem C133_binary_sizes [Zero α] (mem : Nat) (P : Rep α) (cols nnz : Nat) (hc : cols < 2 ^ 64) (hn : nnz < 2 ^ 64) (rest : List Byte) :
    readBinaryMat64 mem P (some (leBytes 8 (2 ^ 64 - 1) ++ (leBytes 8 cols ++ (leBytes 8 nnz ++ rest)))) = (if nnz ≤ mem then .error .outOfBounds else .error .threw) ∧
    (mem < nnz → readBinaryVec64 mem P (some (leBytes 8 nnz ++ rest)) = .error .threw) := by
  constructor
  · unfold readBinaryMat64 openBin
    simp only [ok_bind]
    rw [readSize_full (by omega)]
    simp only
    rw [readSize_full hc]
    simp only
    rw [readSize_full hn]
    simp only [useVar, ok_bind]
    have : (2 ^ 64 - 1 + 1) % sizeEnd = 0 := by unfold sizeEnd; omega
    rw [this, alloc_ok (Nat.zero_le _), ok_bind]
    by_cases h : nnz ≤ mem
    · rw [alloc_ok h, if_pos h]
      rfl
    · rw [if_neg h, show alloc mem nnz = .error .threw from if_neg h]
      rfl
  · intro h
    unfold readBinaryVec64 openBin
    simp only [ok_bind]
    rw [readBytes_full (leBytes_length 8 nnz) (leBytes_length 8 0), leVal_leBytes 8 nnz (by simpa using hn)]
    rw [show alloc mem nnz = .error .threw from if_neg (by omega)]
    rfl

/-! ## Cases -/

/-- **C133.**  Lists of edges that hold a number of 32 bits without sign: everything from that line on is lost, with unbounded integers nothing is. -/
theorem C133_lost : ∃ (t : Text) (A : Csr Int), readAdjList32 (some t) false = .ok A ∧ A = ⟨1, 2, [0, 1], [1], [1]⟩ ∧
    readAll (step2 intFmt intFmt) ⟨t, false⟩ = [(0, 1), (3000000000, 1), (1, 0)] :=
  ⟨"0 1\n3000000000 1\n1 0\n".toList, _, by decide +kernel, rfl, by decide +kernel⟩

/-- **C133.**  In a table such a number ends only its own line. -/
theorem C133_table_lost : readTable32 (some "0 1\n4 3000000000 2\n1 0\n".toList) = .ok (⟨3, 5, [0, 2, 3, 5], [0, 1, 4, 1, 0], [1, 1, 1, 1, 1]⟩ : Csr Int) ∧
    (readTable32 (some "2147483647\n".toList) : Res (Csr Int)) = .error .undefinedBehaviour ∧ (readTable32 (some "2147483646\n".toList) : Res (Csr Int)) =
      .ok ⟨1, 2147483647, [0, 1], [2147483646], [1]⟩ := by decide +kernel

/-- C133: a file of edges that fits. -/
example : ∃ t : Text, (∀ e ∈ readAll (step2 intFmt intFmt) ⟨t, false⟩, Fits32 e.1 ∧ Fits32 e.2) ∧ readAll (step2 intFmt intFmt) ⟨t, false⟩ = [(0, 1), (1, 7)] ∧
    (readAdjList32 (some t) true : Res (Csr Int)) = readAdjList (some t) true ∧ (readGraphList32 (some t) : Res (Csr Int)) = readGraphList (some t) := by
  have e : readAll (step2 intFmt intFmt) ⟨"0 1\n1 7\n".toList, false⟩ = [(0, 1), (1, 7)] := by decide +kernel
  have h : ∀ e ∈ readAll (step2 intFmt intFmt) ⟨"0 1\n1 7\n".toList, false⟩, Fits32 e.1 ∧ Fits32 e.2 := by
    rw [e]
    unfold Fits32
    decide
  exact ⟨"0 1\n1 7\n".toList, h, e, (C133_lists intFmt _ true).1 h (by rw [e]; decide), C133_graph _ h (by rw [e]; decide)⟩

/-- C133: the number after which nothing is read, and the row number that cannot be counted. -/
example : inInt 3000000000 = false ∧ Ends " 1\n1 0\n".toList ∧
    (∀ e ∈ readAll (step2 intFmt intFmt) ⟨"2147483646 0\n".toList, false⟩, 0 ≤ e.1 ∧ e.1 ≤ intMax ∧ 0 ≤ e.2 ∧ e.2 ≤ intMax) ∧
    (∃ e ∈ readAll (step2 intFmt intFmt) ⟨"2147483646 0\n".toList, false⟩, intMax - 1 ≤ e.1 ∨ e.2 = intMax) :=
  ⟨by decide, ends_sp _, by decide +kernel, by decide +kernel⟩

/-- C133: a CSR file, with memory for three numbers and for two; a Matrix Market file. -/
example : readCsr32 3 intFmt (some "2\n3\n0\n0\n2\n2\n0\n9\n-4\n".toList) = .ok ⟨2, 3, [0, 0, 2], [2, 0], [9, -4]⟩ ∧
    readCsr32 2 intFmt (some "2\n3\n0\n0\n2\n2\n0\n9\n-4\n".toList) = .error .threw ∧
    readCsr32 100 intFmt (some "-1\n3\n0\n0\n2\n2\n0\n9\n-4\n".toList) = .error .undefinedBehaviour ∧
    readMtx32 intFmt (some "%\n2 2 99999999999\n1 1 5\n2 1 6\n".toList) = .ok ⟨2, 2, [0, 1, 2], [0, 0], [5, 6]⟩ ∧
    readMtx32 intFmt (some "%\n2147483648 2 2\n1 1 5\n".toList) = .error .undefinedBehaviour := by decide +kernel

end Io
end Linalg
