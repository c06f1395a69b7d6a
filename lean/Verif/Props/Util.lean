import Verif.Model.Util
import Verif.Proof.Io
import Mathlib.Algebra.Order.Group.Defs
import Mathlib.Algebra.Order.Group.Int
import Mathlib.Tactic.Abel

/-!
# Command line arguments and timers: properties C57, C58
-/

namespace Linalg
open Cpp
namespace Util
open Io

variable {α β : Type}

/-! ## C57 -/

/-- Starts with two dashes. -/
def Long (a : Text) : Prop := "--".toList <+: a

/-- Starts with a dash. -/
def Dashed (a : Text) : Prop := a.head? = some '-'

/-- A command line: flags, each with a value or without. -/
abbrev Groups := List (Text × Option Text)

/-- The arguments. -/
def Groups.flat (g : Groups) : List Text := g.flatMap (fun p => p.1 :: p.2.toList)

/-- Every flag starts with a dash, no value starts with two dashes, and what follows a flag without a value, if anything,
starts with two dashes. -/
def Groups.Valid : Groups → Prop
  | [] => True
  | (f, some v) :: g => Dashed f ∧ ¬ Long v ∧ Groups.Valid g
  | (f, none) :: g => Dashed f ∧ (∀ p ∈ g.head?, Long p.1) ∧ Groups.Valid g

theorem isFlag_iff (a : Text) : isFlag a = true ↔ Long a := by
  unfold isFlag Long
  rw [List.prefix_iff_eq_take]
  simp only [decide_eq_true_eq]
  exact eq_comm

theorem isFlag_false (a : Text) : isFlag a = false ↔ ¬ Long a := by rw [← isFlag_iff]; simp

theorem checkFlag_ok {a : Text} (h : Dashed a) : checkFlag a = .ok () := by
  unfold Dashed at h
  rcases a with _ | ⟨c, t⟩
  · simp at h
  · simp only [List.head?_cons, Option.some.injEq] at h
    subst h
    unfold checkFlag
    rw [cassert_true (by simp), ok_bind, rd_int le_rfl (by simp), ok_bind, cassert_true (by simp)]

theorem checkFlag_inv {a : Text} (h : checkFlag a = .ok ()) : Dashed a := by
  rcases a with _ | ⟨c, t⟩
  · cases h
  · unfold checkFlag at h
    rw [cassert_true (by simp), ok_bind, rd_int le_rfl (by simp), ok_bind] at h
    by_cases hc : c = '-'
    · subst hc; rfl
    · rw [cassert_false (by simpa using hc)] at h; cases h

theorem scan_groups (g : Groups) (hg : g.Valid) (P : Args) :
    Args.scan g.flat P = .ok (g.foldl (fun P p => P.store p.1 (p.2.getD [])) P) := by
  induction g generalizing P with
  | nil => rfl
  | cons p g ih =>
    obtain ⟨f, v⟩ := p
    rcases v with _ | v
    · obtain ⟨h1, h2, h3⟩ := hg
      rcases g with _ | ⟨q, g⟩
      · simp only [Groups.flat, List.flatMap_cons, List.flatMap_nil, Option.toList_none, List.append_nil, Args.scan]
        rw [checkFlag_ok h1]; rfl
      · have e : Groups.flat ((f, none) :: q :: g) = f :: q.1 :: (q.2.toList ++ Groups.flat g) := by simp [Groups.flat]
        have e' : Groups.flat (q :: g) = q.1 :: (q.2.toList ++ Groups.flat g) := by simp [Groups.flat]
        have hl : isFlag q.1 = true := (isFlag_iff _).mpr (h2 q (by simp))
        rw [e]
        simp only [Args.scan]
        rw [checkFlag_ok h1, ok_bind, if_neg (by simp [hl]), ← e', ih h3]
        rfl
    · obtain ⟨h1, h2, h3⟩ := hg
      have e : Groups.flat ((f, some v) :: g) = f :: v :: Groups.flat g := by simp [Groups.flat]
      rw [e]
      simp only [Args.scan]
      rw [checkFlag_ok h1, ok_bind, if_pos ((isFlag_false v).mpr h2), ih h3]
      rfl

/-- What is accepted can be grouped. -/
theorem scan_inv : ∀ (n : Nat) (l : List Text), l.length ≤ n → ∀ (P Q : Args), Args.scan l P = .ok Q →
    ∃ g : Groups, g.Valid ∧ g.flat = l
  | 0, l, hl, P, Q, h => by
    obtain rfl : l = [] := List.length_eq_zero_iff.mp (by omega)
    exact ⟨[], trivial, rfl⟩
  | n + 1, [], _, _, _, _ => ⟨[], trivial, rfl⟩
  | n + 1, [a], _, P, Q, h => by
    simp only [Args.scan] at h
    rw [bind_eq_ok] at h
    obtain ⟨u, h1, _⟩ := h
    exact ⟨[(a, none)], ⟨checkFlag_inv h1, by simp, trivial⟩, rfl⟩
  | n + 1, a :: b :: rest, hl, P, Q, h => by
    simp only [Args.scan] at h
    rw [bind_eq_ok] at h
    obtain ⟨u, h1, h2⟩ := h
    simp only [List.length_cons] at hl
    by_cases hb : isFlag b = false
    · rw [if_pos hb] at h2
      obtain ⟨g, g1, g2⟩ := scan_inv n rest (by omega) _ _ h2
      exact ⟨(a, some b) :: g, ⟨checkFlag_inv h1, (isFlag_false b).mp hb, g1⟩, by rw [← g2]; simp [Groups.flat]⟩
    · rw [if_neg hb] at h2
      obtain ⟨g, g1, g2⟩ := scan_inv n (b :: rest) (by simp only [List.length_cons]; omega) _ _ h2
      refine ⟨(a, none) :: g, ⟨checkFlag_inv h1, ?_, g1⟩, by rw [← g2]; simp [Groups.flat]⟩
      intro p hp
      rcases g with _ | ⟨q, g⟩
      · simp at hp
      · simp only [List.head?_cons, Option.mem_def, Option.some.injEq] at hp
        subst hp
        have : q.1 = b := by
          simp only [Groups.flat, List.flatMap_cons, List.cons_append, List.cons.injEq] at g2
          exact g2.1
        rw [this, ← isFlag_iff]
        simpa using hb

theorem collect_eq (l : List Text) (hl : ∀ a ∈ l, a ≠ []) (s : List Text × Bool) :
    Args.collect l s = .ok (s.1 ++ l.filter (fun a => a ≠ "--help".toList), s.2 || decide ("--help".toList ∈ l)) := by
  induction l generalizing s with
  | nil => simp [Args.collect]
  | cons a l ih =>
    have ih' := fun s => ih (fun x hx => hl x (by simp [hx])) s
    unfold Args.collect
    by_cases h : a = "--help".toList
    · rw [if_pos h, ih', List.filter_cons_of_neg (by simp only [ne_eq, h, not_true_eq_false, decide_false, Bool.false_eq_true, not_false_eq_true])]
      simp only [h, List.mem_cons, true_or, decide_true, Bool.or_true, Bool.true_or]
    · have hpos : a.length > 0 := List.length_pos_iff.mpr (hl a (by simp))
      rw [if_neg h, cassert_true hpos, ok_bind, ih', List.filter_cons_of_pos (by simpa only [ne_eq, decide_eq_true_eq] using h)]
      have : ("--help".toList ∈ a :: l) ↔ "--help".toList ∈ l := by
        simp only [List.mem_cons, or_iff_right_iff_imp]
        intro e; exact absurd e.symm h
      simp only [List.append_assoc, List.cons_append, List.nil_append, this]

theorem collect_inv {l : List Text} {s t : List Text × Bool} (h : Args.collect l s = .ok t) : ∀ a ∈ l, a ≠ [] := by
  induction l generalizing s with
  | nil => simp
  | cons a l ih =>
    unfold Args.collect at h
    by_cases ha : a = "--help".toList
    · rw [if_pos ha] at h
      intro x hx
      rcases List.mem_cons.mp hx with rfl | hx
      · rw [ha]; decide
      · exact ih h x hx
    · rw [if_neg ha, bind_eq_ok] at h
      obtain ⟨_, h1, h2⟩ := h
      intro x hx
      rcases List.mem_cons.mp hx with rfl | hx
      · rintro rfl; cases h1
      · exact ih h2 x hx

theorem get_set (m : Map β) (k : Text) (v : β) (f : Text) : (m.set k v).get f = if k = f then some v else m.get f := by
  unfold Map.set Map.get
  by_cases h : k = f
  · simp [h]
  · rw [if_neg h, List.find?_cons_of_neg (by simpa using h), List.find?_filter]
    congr 2
    funext p
    by_cases hp : p.1 = f
    · simp [hp]
      exact fun e => h e.symm
    · simp [hp]

/-- The state after storing groups. -/
theorem store_groups (g : Groups) (P : Args) :
    let Q := g.foldl (fun P p => P.store p.1 (p.2.getD [])) P
    (∀ f, Q.values.get f = (P.values.get f).or ((g.find? (fun p => p.1 = f)).map (fun p => p.2.getD []))) ∧
    Q.seen = P.seen ∧ Q.needHelp = P.needHelp ∧ Q.help = P.help ∧
    (Q.errors = [] ↔ P.errors = [] ∧ (g.map Prod.fst).Nodup ∧ ∀ f ∈ g.map Prod.fst, P.values.get f = none) := by
  induction g generalizing P with
  | nil => simp
  | cons p g ih =>
    obtain ⟨i1, i2, i3, i4, i5⟩ := ih (P.store p.1 (p.2.getD []))
    simp only [List.foldl_cons]
    rcases hv : P.values.get p.1 with _ | w
    · have hs : P.store p.1 (p.2.getD []) = { P with values := P.values.set p.1 (p.2.getD []) } := by
        simp only [Args.store, hv]
      rw [hs] at i1 i2 i3 i4 i5
      rw [hs]
      refine ⟨fun f => ?_, i2, i3, i4, ?_⟩
      · rw [i1, get_set]
        by_cases h : p.1 = f
        · subst h
          rw [if_pos rfl, hv, List.find?_cons_of_pos (by simp)]
          simp
        · rw [if_neg h, List.find?_cons_of_neg (by simpa using h)]
      · rw [i5]
        simp only [get_set, List.map_cons, List.nodup_cons, List.mem_cons, forall_eq_or_imp]
        constructor
        · rintro ⟨a, b, c⟩
          refine ⟨a, ⟨?_, b⟩, hv, ?_⟩
          · intro hm; have := c _ hm; simp at this
          · intro f hf
            have := c f hf
            split at this
            · cases this
            · exact this
        · rintro ⟨a, ⟨b1, b2⟩, c, d⟩
          refine ⟨a, b2, fun f hf => ?_⟩
          rw [if_neg (by rintro rfl; exact b1 hf)]
          exact d f hf
    · have hs : P.store p.1 (p.2.getD []) = { P with errors := P.errors ++ [p.1 ++ " entered multiple times!".toList] } := by
        simp only [Args.store, hv]
      rw [hs] at i1 i2 i3 i4 i5
      rw [hs]
      refine ⟨fun f => ?_, i2, i3, i4, ?_⟩
      · rw [i1]
        by_cases h : p.1 = f
        · subst h
          simp only [hv, Option.some_or]
        · rw [List.find?_cons_of_neg (by simpa using h)]
      · rw [i5]
        simp only [List.append_eq_nil_iff, List.cons_ne_self, and_false, false_and, List.map_cons, List.mem_cons,
          forall_eq_or_imp, hv, reduceCtorEq]

/-- A command line has one grouping. -/
theorem Groups.unique {g g' : Groups} (h : g.Valid) (h' : g'.Valid) (e : g.flat = g'.flat) : g = g' := by
  induction g generalizing g' with
  | nil =>
    rcases g' with _ | ⟨p, g'⟩
    · rfl
    · simp [Groups.flat] at e
  | cons p g ih =>
    rcases g' with _ | ⟨q, g'⟩
    · simp [Groups.flat] at e
    · obtain ⟨f, v⟩ := p
      obtain ⟨f', v'⟩ := q
      have e1 : f = f' ∧ v.toList ++ Groups.flat g = v'.toList ++ Groups.flat g' := by
        simpa [Groups.flat] using e
      obtain ⟨rfl, e2⟩ := e1
      rcases v with _ | v <;> rcases v' with _ | v'
      · rw [ih h.2.2 h'.2.2 (by simpa using e2)]
      · exfalso
        rcases g with _ | ⟨r, g⟩
        · simp [Groups.flat] at e2
        · have hl := h.2.1 r (by simp)
          have : r.1 = v' := by
            have := e2
            simp [Groups.flat] at this
            exact this.1
          exact h'.2.1 (this ▸ hl)
      · exfalso
        rcases g' with _ | ⟨r, g'⟩
        · simp [Groups.flat] at e2
        · have hl := h'.2.1 r (by simp)
          have : v = r.1 := by
            have := e2
            simp [Groups.flat] at this
            exact this.1
          exact h.2.1 (this ▸ hl)
      · have e3 : v = v' ∧ Groups.flat g = Groups.flat g' := by simpa using e2
        rw [e3.1, ih h.2.2 h'.2.2 e3.2]

/-- **C57.**  The command lines accepted are exactly those without empty arguments that, after removing `--help`, consist of
flags with or without a value, and there is only one way to read them. -/
theorem C57_accepts (argv : List Text) :
    (∃ P, Args.ofArgv argv = .ok P) ↔ (∀ a ∈ argv.drop 1, a ≠ []) ∧
      ∃ g : Groups, g.Valid ∧ g.flat = (argv.drop 1).filter (fun a => a ≠ "--help".toList) ∧
        ∀ g' : Groups, g'.Valid → g'.flat = (argv.drop 1).filter (fun a => a ≠ "--help".toList) → g' = g := by
  constructor
  · rintro ⟨P, h⟩
    unfold Args.ofArgv at h
    rw [bind_eq_ok] at h
    obtain ⟨s, h1, h2⟩ := h
    have hne := collect_inv h1
    rw [collect_eq _ hne, List.nil_append] at h1
    obtain rfl := Except.ok.inj h1
    obtain ⟨g, g1, g2⟩ := scan_inv _ _ le_rfl _ _ h2
    exact ⟨hne, g, g1, g2, fun g' v' e' => Groups.unique v' g1 (e'.trans g2.symm)⟩
  · rintro ⟨hne, g, g1, g2, _⟩
    unfold Args.ofArgv
    rw [collect_eq _ hne, ok_bind]
    simp only [List.nil_append]
    rw [← g2, scan_groups g g1]
    exact ⟨_, rfl⟩

/-- **C57.**  Each flag gets its own value: the argument after its first occurrence if that does not start with two dashes,
else nothing; a flag that does not occur has none. -/
theorem C57_values (argv : List Text) (P : Args) (h : Args.ofArgv argv = .ok P) (g : Groups) (hg : g.Valid)
    (hf : g.flat = (argv.drop 1).filter (fun a => a ≠ "--help".toList)) (f : Text) :
    P.values.get f = (g.find? (fun p => p.1 = f)).map (fun p => p.2.getD []) := by
  unfold Args.ofArgv at h
  rw [bind_eq_ok] at h
  obtain ⟨s, h1, h2⟩ := h
  rw [collect_eq _ (collect_inv h1), List.nil_append] at h1
  obtain rfl := Except.ok.inj h1
  simp only at h2
  rw [← hf, scan_groups g hg] at h2
  obtain rfl := Except.ok.inj h2
  rw [(store_groups g _).1]
  simp [Args.new, Map.get]

/-- A sequence of `Parse` calls, of any types, with the flags that were asked for. -/
inductive Parses : Args → List Text → Args → Prop
  | nil (P : Args) : Parses P [] P
  | value {P Q : Args} {fs : List Text} (h : Parses P fs Q) (α : Type) (z : Zero α) (F : Fmt α) (arg : α) (flag help : Text) :
      Parses P (fs ++ [flag]) (Q.parse F arg flag help).2
  | bool {P Q : Args} {fs : List Text} (h : Parses P fs Q) (arg : Bool) (flag help : Text) :
      Parses P (fs ++ [flag]) (Q.parseBool arg flag help).2

theorem record_spec (P : Args) (flag shown : Text) :
    (P.record flag shown).values = P.values ∧ (P.record flag shown).needHelp = P.needHelp ∧
    ((P.record flag shown).errors = [] ↔ P.errors = [] ∧ P.seen.get flag = none) ∧
    (∀ f, ((P.record flag shown).seen.get f).isSome ↔ f = flag ∨ (P.seen.get f).isSome) := by
  unfold Args.record
  rcases h : P.seen.get flag with _ | w
  · refine ⟨rfl, rfl, by simp, fun f => ?_⟩
    simp only [get_set]
    by_cases hf : flag = f
    · simp [hf]
    · simp [hf, Ne.symm hf]
  · refine ⟨rfl, rfl, by simp, fun f => ?_⟩
    by_cases hf : f = flag
    · simp [hf, h]
    · simp [hf]

theorem Parses.spec {P Q : Args} {fs : List Text} (h : Parses P fs Q) :
    Q.values = P.values ∧ Q.needHelp = P.needHelp ∧ (∀ f, (Q.seen.get f).isSome ↔ f ∈ fs ∨ (P.seen.get f).isSome) ∧
    (Q.errors = [] ↔ P.errors = [] ∧ fs.Nodup ∧ ∀ f ∈ fs, P.seen.get f = none) := by
  have step : ∀ {Q : Args} {fs : List Text} (flag shown : Text) (hlp : Map Text), Q.values = P.values → Q.needHelp = P.needHelp →
      (∀ f, (Q.seen.get f).isSome ↔ f ∈ fs ∨ (P.seen.get f).isSome) →
      (Q.errors = [] ↔ P.errors = [] ∧ fs.Nodup ∧ ∀ f ∈ fs, P.seen.get f = none) →
      (({ Q with help := hlp } : Args).record flag shown).values = P.values ∧
      (({ Q with help := hlp } : Args).record flag shown).needHelp = P.needHelp ∧
      (∀ f, ((({ Q with help := hlp } : Args).record flag shown).seen.get f).isSome ↔ f ∈ fs ++ [flag] ∨ (P.seen.get f).isSome) ∧
      ((({ Q with help := hlp } : Args).record flag shown).errors = [] ↔ P.errors = [] ∧ (fs ++ [flag]).Nodup ∧
        ∀ f ∈ fs ++ [flag], P.seen.get f = none) := by
    intro Q fs flag shown hlp q1 q2 q3 q4
    obtain ⟨r1, r2, r3, r4⟩ := record_spec ({ Q with help := hlp } : Args) flag shown
    refine ⟨r1.trans q1, r2.trans q2, fun f => ?_, ?_⟩
    · rw [r4]
      simp only
      rw [q3, List.mem_append, List.mem_singleton]
      tauto
    · rw [r3]
      simp only
      rw [q4]
      have hq := q3 flag
      have e : Q.seen.get flag = none ↔ flag ∉ fs ∧ P.seen.get flag = none := by
        rw [← Option.not_isSome_iff_eq_none, hq, not_or, Option.not_isSome_iff_eq_none]
      rw [e]
      rw [List.nodup_append]
      simp only [List.mem_append, List.mem_singleton, List.nodup_cons, List.not_mem_nil, not_false_eq_true, List.nodup_nil,
        and_self, true_and, forall_eq]
      constructor
      · rintro ⟨⟨a, b, c⟩, d, e⟩
        refine ⟨a, ⟨b, fun x hx e' => d (e' ▸ hx)⟩, ?_⟩
        rintro f (hf | rfl)
        · exact c f hf
        · exact e
      · rintro ⟨a, ⟨b, c⟩, d⟩
        exact ⟨⟨a, b, fun f hf => d f (Or.inl hf)⟩, fun hm => c flag hm rfl, d flag (Or.inr rfl)⟩
  induction h with
  | nil => simp
  | value h α z F arg flag help ih =>
    obtain ⟨q1, q2, q3, q4⟩ := ih
    exact step flag _ _ q1 q2 q3 q4
  | bool h arg flag help ih =>
    obtain ⟨q1, q2, q3, q4⟩ := ih
    exact step flag _ _ q1 q2 q3 q4

theorem ofArgv_inv {argv : List Text} {P : Args} (h : Args.ofArgv argv = .ok P) {g : Groups} (hg : g.Valid)
    (hf : g.flat = (argv.drop 1).filter (fun a => a ≠ "--help".toList)) :
    P = g.foldl (fun P p => P.store p.1 (p.2.getD []))
      { Args.new with needHelp := false || decide ("--help".toList ∈ argv.drop 1) } := by
  unfold Args.ofArgv at h
  rw [bind_eq_ok] at h
  obtain ⟨s, h1, h2⟩ := h
  rw [collect_eq _ (collect_inv h1), List.nil_append] at h1
  obtain rfl := Except.ok.inj h1
  simp only at h2
  rw [← hf, scan_groups g hg] at h2
  exact (Except.ok.inj h2).symm

theorem isGood_foldl {g : Groups} {P Q : Args} {hlp : Bool}
    (hP : P = g.foldl (fun P p => P.store p.1 (p.2.getD [])) { Args.new with needHelp := hlp }) {fs : List Text}
    (hq : Parses P fs Q) : Q.isGood = false ↔ ¬ (g.map Prod.fst).Nodup ∨ ¬ fs.Nodup ∨ hlp = true := by
  obtain ⟨q1, q2, q3, q4⟩ := hq.spec
  obtain ⟨s1, s2, s3, s4, s5⟩ := store_groups g { Args.new with needHelp := hlp }
  rw [← hP] at s1 s2 s3 s4 s5
  rw [s3] at q2
  rw [s2, s5] at q4
  have hgood : Q.isGood = true ↔ Q.errors = [] ∧ Q.needHelp = false := by
    unfold Args.isGood
    simp
  have e : Q.isGood = false ↔ ¬ (Q.errors = [] ∧ Q.needHelp = false) := by rw [← hgood]; simp
  rw [e, q4, q2]
  simp only [Args.new, Map.get, List.find?_nil, Option.map_none, implies_true, and_true, true_and]
  cases hlp <;> simp
  tauto

/-- **C57.**  After any sequence of `Parse` calls `IsGood()` is false exactly if a flag occurs twice on the command line, a
flag was asked for twice, or `--help` was given; the values do not change. -/
theorem C57_isGood (argv : List Text) (P Q : Args) (h : Args.ofArgv argv = .ok P) (g : Groups) (hg : g.Valid)
    (hf : g.flat = (argv.drop 1).filter (fun a => a ≠ "--help".toList)) (fs : List Text) (hq : Parses P fs Q) :
    Q.values = P.values ∧
    (Q.isGood = false ↔ ¬ (g.map Prod.fst).Nodup ∨ ¬ fs.Nodup ∨ "--help".toList ∈ argv.drop 1) := by
  refine ⟨hq.spec.1, ?_⟩
  rw [isGood_foldl (ofArgv_inv h hg hf) hq, Bool.false_or, decide_eq_true_eq]

/-- **C57.**  `Parse` reads the value of its own flag: a missing flag, or one without a value, leaves the variable, a value
that was printed from `x` gives `x`; a boolean is inverted exactly if its flag is there. -/
theorem C57_parse [Zero α] (F : Fmt α) (P : Args) (arg : α) (b : Bool) (flag help : Text) :
    (P.values.get flag = none → (P.parse F arg flag help).1 = arg ∧ (P.parseBool b flag help).1 = b) ∧
    (P.values.get flag = some [] → (P.parse F arg flag help).1 = arg) ∧
    (∀ x, F.RoundTrips x → P.values.get flag = some (F.put x) → (P.parse F arg flag help).1 = x) ∧
    (∀ v, P.values.get flag = some v → (P.parseBool b flag help).1 = !b) := by
  unfold Args.parse Args.parseBool
  simp only
  refine ⟨fun h => ?_, fun h => ?_, fun x hx h => ?_, fun v h => ?_⟩
  · rw [h]; exact ⟨rfl, rfl⟩
  · rw [h]
    simp only [extract_space F AllSpace.nil, Option.getD_some]
  · rw [h]
    have := extract_put hx (ws := []) (r := []) AllSpace.nil ends_nil (some arg)
    simp only [List.nil_append, List.append_nil] at this
    simp only [this, Option.getD_some]
  · rw [h]

/-- C57: flags with and without a value, a repeated flag, a negative number as a value. -/
example : ∃ g : Groups, g.Valid ∧ g.flat = ["--n", "-5", "--verbose", "--n", "7"].map String.toList ∧
    Args.ofArgv (["prog", "--n", "-5", "--verbose", "--n", "7"].map String.toList)
      = .ok ⟨[], ["--n entered multiple times!".toList], [("--verbose".toList, []), ("--n".toList, "-5".toList)], [], false⟩ :=
  ⟨[("--n".toList, some "-5".toList), ("--verbose".toList, none), ("--n".toList, some "7".toList)], by
    refine ⟨by unfold Dashed; decide, by unfold Long; decide, ?_⟩
    refine ⟨by unfold Dashed; decide, ?_, ?_⟩
    · intro p hp
      have : p = ("--n".toList, some "7".toList) := by simpa using hp.symm
      rw [this]; unfold Long; decide
    · exact ⟨by unfold Dashed; decide, by unfold Long; decide, trivial⟩, by decide, by decide +kernel⟩

/-- **C57** needs two dashes: in the form `-flag` that include/argparser.hpp documents, a flag without a value swallows the
flag after it. -/
theorem C57_single_dash : ∃ P, Args.ofArgv (["prog", "-a", "-b"].map String.toList) = .ok P ∧
    P.values.get "-a".toList = some "-b".toList ∧ P.values.get "-b".toList = none ∧ P.isGood = true :=
  ⟨⟨[], [], [("-a".toList, "-b".toList)], [], false⟩, by decide +kernel, by decide, by decide, by decide⟩

/-! ## C58 -/

theorem Timer.get_eq [Sub α] (T : Timer α) (i : Nat) (h : i + 1 < T.times.length) :
    T.get (i : Int) = .ok (T.times[i + 1] - T.times[i]) := by
  unfold Timer.get
  rw [cassert_true (by omega), ok_bind, cassert_true (by omega), ok_bind]
  rw [show (i : Int) + 1 = ((i + 1 : Nat) : Int) by push_cast; rfl, rd_nat h, ok_bind, rd_nat (by omega), ok_bind]

theorem Timer.spec [AddCommGroup α] (T : Timer α) (l : List α) (hT : T.times = l) :
    ∃ ds : List α, ds.length = l.length - 1 ∧ (∀ (i : Nat) (h : i < ds.length), T.get (i : Int) = .ok ds[i]) ∧
      (∀ (i : Nat) (h : i + 1 < l.length), T.get (i : Int) = .ok (l[i + 1] - l[i])) ∧
      T.total = .ok ds.sum ∧ (l.length < 2 → T.total = .ok 0) ∧
      (∀ a b m, l = a :: (m ++ [b]) → T.total = .ok (b - a)) ∧
      (∀ i : Int, i < 0 ∨ (l.length : Int) - 1 ≤ i → T.get i = .error .assertFail) := by
  have hsum : ∀ (l : List α) (a : α), ((List.range l.length).map (fun i => (a :: l).getD (i + 1) 0 - (a :: l).getD i 0)).sum
      = (a :: l).getLast (by simp) - a := by
    intro l
    induction l with
    | nil => intro a; simp
    | cons b l ih =>
      intro a
      rw [List.length_cons, List.range_succ_eq_map, List.map_cons, List.sum_cons, List.map_map]
      have := ih b
      simp only [Function.comp_def]
      rw [show (fun x : Nat => (a :: b :: l).getD (x.succ + 1) 0 - (a :: b :: l).getD x.succ 0)
        = fun i => (b :: l).getD (i + 1) 0 - (b :: l).getD i 0 from by funext x; rfl, this]
      rw [List.getLast_cons (by simp : b :: l ≠ [])]
      simp only [List.getD_cons_succ, List.getD_cons_zero]
      abel
  have htot : ∀ a l', l = a :: l' → l' ≠ [] → T.total = .ok ((a :: l').getLast (by simp) - a) := by
    intro a l' hl hne
    have hlen : 0 < l'.length := List.length_pos_iff.mpr hne
    unfold Timer.total
    rw [hT, hl, if_neg (by simp only [List.length_cons]; omega)]
    rw [show (((a :: l').length : Int) - 1) = ((l'.length : Nat) : Int) by simp]
    rw [rd_nat (by simp), ok_bind, show (0 : Int) = ((0 : Nat) : Int) from rfl, rd_nat (by simp), ok_bind]
    congr 2
    rw [List.getLast_eq_getElem]
    simp
  refine ⟨(List.range (l.length - 1)).map (fun i => l.getD (i + 1) 0 - l.getD i 0), by simp, ?_, ?_, ?_, ?_, ?_, ?_⟩
  · intro i h
    simp only [List.length_map, List.length_range] at h
    rw [Timer.get_eq T i (by rw [hT]; omega)]
    simp only [hT, List.getElem_map, List.getElem_range]
    simp only [List.getD_eq_getElem?_getD, List.getElem?_eq_getElem (show i + 1 < l.length by omega),
      List.getElem?_eq_getElem (show i < l.length by omega), Option.getD_some]
  · intro i h
    rw [Timer.get_eq T i (by rw [hT]; exact h)]
    simp only [hT]
  · rcases l with _ | ⟨a, l'⟩
    · simp [Timer.total, hT]
    · rcases Decidable.em (l'.length = 0) with h0 | h0
      · have := List.length_eq_zero_iff.mp h0
        subst this
        simp [Timer.total, hT]
      · rw [htot a l' rfl (by intro e; rw [e] at h0; exact h0 rfl)]
        rw [List.length_cons, Nat.add_sub_cancel, hsum]
  · intro h
    unfold Timer.total
    rw [hT, if_pos h]
  · intro a b m h
    rw [htot a (m ++ [b]) h (by simp)]
    simp
  · intro i h
    unfold Timer.get
    rw [hT]
    by_cases h0 : i ≥ 0
    · rw [cassert_true h0, ok_bind, cassert_false (by omega)]; rfl
    · rw [cassert_false h0]; rfl

/-- **C58.**  A timer clicked at the times `c`: the intervals are the differences of consecutive times, the total is their
sum and the difference of the last and the first time, 0 with fewer than two clicks; an index outside is rejected. -/
theorem C58_total [AddCommGroup α] (start : Bool) (now : α) (c : List α) :
    let T := c.foldl (fun (T : Timer α) t => T.click t) (Timer.new start now)
    let ts := (if start then [now] else []) ++ c
    ∃ ds : List α, ds.length = ts.length - 1 ∧ (∀ (i : Nat) (h : i < ds.length), T.get (i : Int) = .ok ds[i]) ∧
      (∀ (i : Nat) (h : i + 1 < ts.length), T.get (i : Int) = .ok (ts[i + 1] - ts[i])) ∧
      T.total = .ok ds.sum ∧ (ts.length < 2 → T.total = .ok 0) ∧
      (∀ a b m, ts = a :: (m ++ [b]) → T.total = .ok (b - a)) ∧
      (∀ i : Int, i < 0 ∨ (ts.length : Int) - 1 ≤ i → T.get i = .error .assertFail) := by
  intro T ts
  have hT : T.times = ts := by
    have : ∀ (c : List α) (T : Timer α), (c.foldl (fun (T : Timer α) t => T.click t) T).times = T.times ++ c := by
      intro c
      induction c with
      | nil => intro T; simp
      | cons t c ih => intro T; rw [List.foldl_cons, ih]; simp [Timer.click]
    show (c.foldl (fun (T : Timer α) t => T.click t) (Timer.new start now)).times = _
    rw [this]
    congr 1
    unfold Timer.new
    cases start <;> rfl
  exact Timer.spec T ts hT

/-- **C58.**  With a clock that does not run backwards, the total and every interval are not negative. -/
theorem C58_nonneg [AddCommGroup α] [LinearOrder α] [IsOrderedAddMonoid α] (T : Timer α) (h : T.times.Pairwise (· ≤ ·)) :
    (∀ t, T.total = .ok t → 0 ≤ t) ∧ ∀ i t, T.get i = .ok t → 0 ≤ t := by
  constructor
  · intro t ht
    unfold Timer.total at ht
    by_cases hl : T.times.length < 2
    · rw [if_pos hl] at ht
      obtain rfl := Except.ok.inj ht
      exact le_rfl
    · rw [if_neg hl, show ((T.times.length : Int) - 1) = ((T.times.length - 1 : Nat) : Int) by omega,
        rd_nat (by omega), ok_bind, show (0 : Int) = ((0 : Nat) : Int) from rfl, rd_nat (by omega), ok_bind] at ht
      obtain rfl := Except.ok.inj ht
      exact sub_nonneg.mpr (List.pairwise_iff_getElem.mp h _ _ _ _ (by omega))
  · intro i t ht
    have h0 : 0 ≤ i := by
      by_contra hc
      unfold Timer.get at ht
      rw [cassert_false (by omega)] at ht; cases ht
    have h1 : i < (T.times.length : Int) - 1 := by
      by_contra hc
      unfold Timer.get at ht
      rw [cassert_true h0, ok_bind, cassert_false hc] at ht; cases ht
    obtain ⟨k, rfl⟩ : ∃ k : Nat, i = (k : Int) := ⟨i.toNat, by omega⟩
    rw [Timer.get_eq T k (by omega)] at ht
    obtain rfl := Except.ok.inj ht
    exact sub_nonneg.mpr (List.pairwise_iff_getElem.mp h _ _ _ _ (by omega))

/-- C58: three clicks. -/
example : ∃ T : Timer Int, [5, 12].foldl (fun (T : Timer Int) t => T.click t) (Timer.new true 3) = T ∧
    T.times.Pairwise (· ≤ ·) ∧ T.total = .ok 9 ∧ T.get 0 = .ok 2 ∧ T.get 1 = .ok 7 ∧ T.get 2 = .error .assertFail :=
  ⟨⟨[3, 5, 12]⟩, by decide, by decide, by decide, by decide, by decide, by decide⟩

end Util
end Linalg
