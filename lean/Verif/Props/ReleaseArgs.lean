import Verif.Model.ReleaseArgs
import Verif.Props.Util

/-! # C152: reading the command line without assertions -/

namespace Linalg
open Cpp
namespace Util
open Io

/-- No value starts with two dashes, and what follows an argument without a value, if anything, starts with two dashes; the
arguments that take the values may be any text. -/
def Groups.Loose : Groups → Prop
  | [] => True
  | (_, some v) :: g => ¬ Long v ∧ Groups.Loose g
  | (_, none) :: g => (∀ p ∈ g.head?, Long p.1) ∧ Groups.Loose g

theorem Groups.Valid.loose : ∀ {g : Groups}, g.Valid → g.Loose
  | [], _ => trivial
  | (_, some _) :: _, h => ⟨h.2.1, Groups.Valid.loose h.2.2⟩
  | (_, none) :: _, h => ⟨h.2.1, Groups.Valid.loose h.2.2⟩

theorem Groups.loose_unique {g g' : Groups} (h : g.Loose) (h' : g'.Loose) (e : g.flat = g'.flat) : g = g' := by
  induction g generalizing g' with
  | nil =>
    rcases g' with _ | ⟨p, g'⟩
    · rfl
    · simp [Groups.flat] at e
  | cons p g ih =>
    rcases g' with _ | ⟨q, g'⟩
    · simp [Groups.flat] at e
    · obtain ⟨f, v⟩ := p
      obtain ⟨f', v'⟩ := q
      have e1 : f = f' ∧ v.toList ++ Groups.flat g = v'.toList ++ Groups.flat g' := by
        simpa [Groups.flat] using e
      obtain ⟨rfl, e2⟩ := e1
      rcases v with _ | v <;> rcases v' with _ | v'
      · rw [ih h.2 h'.2 (by simpa using e2)]
      · exfalso
        rcases g with _ | ⟨r, g⟩
        · simp [Groups.flat] at e2
        · have hl := h.1 r (by simp)
          have : r.1 = v' := by
            have := e2
            simp [Groups.flat] at this
            exact this.1
          exact h'.1 (this ▸ hl)
      · exfalso
        rcases g' with _ | ⟨r, g'⟩
        · simp [Groups.flat] at e2
        · have hl := h'.1 r (by simp)
          have : v = r.1 := by
            have := e2
            simp [Groups.flat] at this
            exact this.1
          exact h.1 (this ▸ hl)
      · have e3 : v = v' ∧ Groups.flat g = Groups.flat g' := by simpa using e2
        rw [e3.1, ih h.2 h'.2 e3.2]

/-- Every list of arguments can be grouped. -/
theorem Groups.loose_exists : ∀ (n : Nat) (l : List Text), l.length ≤ n → ∃ g : Groups, g.Loose ∧ g.flat = l
  | _, [], _ => ⟨[], trivial, rfl⟩
  | _, [a], _ => ⟨[(a, none)], ⟨by simp, trivial⟩, rfl⟩
  | 0, _ :: _ :: _, hl => by simp at hl
  | n + 1, a :: b :: rest, hl => by
    simp only [List.length_cons] at hl
    by_cases hb : Long b
    · obtain ⟨g, g1, g2⟩ := Groups.loose_exists n (b :: rest) (by simp only [List.length_cons]; omega)
      refine ⟨(a, none) :: g, ⟨?_, g1⟩, by rw [← g2]; simp [Groups.flat]⟩
      intro p hp
      rcases g with _ | ⟨q, g⟩
      · simp at hp
      · simp only [List.head?_cons, Option.mem_def, Option.some.injEq] at hp
        subst hp
        have : q.1 = b := by
          simp only [Groups.flat, List.flatMap_cons, List.cons_append, List.cons.injEq] at g2
          exact g2.1
        rw [this]; exact hb
    · obtain ⟨g, g1, g2⟩ := Groups.loose_exists n rest (by omega)
      exact ⟨(a, some b) :: g, ⟨hb, g1⟩, by rw [← g2]; simp [Groups.flat]⟩

theorem argScan_loose (g : Groups) (hg : g.Loose) (P : Args) :
    Rel.argScan .release g.flat P = .ok (g.foldl (fun P p => P.store p.1 (p.2.getD [])) P) := by
  induction g generalizing P with
  | nil => rfl
  | cons p g ih =>
    obtain ⟨f, v⟩ := p
    rcases v with _ | v
    · obtain ⟨h2, h3⟩ := hg
      rcases g with _ | ⟨q, g⟩
      · rfl
      · have e : Groups.flat ((f, none) :: q :: g) = f :: q.1 :: (q.2.toList ++ Groups.flat g) := by simp [Groups.flat]
        have e' : Groups.flat (q :: g) = q.1 :: (q.2.toList ++ Groups.flat g) := by simp [Groups.flat]
        have hl : isFlag q.1 = true := (isFlag_iff _).mpr (h2 q (by simp))
        rw [e]
        simp only [Rel.argScan, Rel.argCheck]
        rw [ok_bind, if_neg (by simp [hl]), ← e', ih h3]
        rfl
    · obtain ⟨h2, h3⟩ := hg
      have e : Groups.flat ((f, some v) :: g) = f :: v :: Groups.flat g := by simp [Groups.flat]
      rw [e]
      simp only [Rel.argScan, Rel.argCheck]
      rw [ok_bind, if_pos ((isFlag_false v).mpr h2), ih h3]
      rfl

theorem argCollect_eq (l : List Text) (s : List Text × Bool) :
    Rel.argCollect .release l s =
      .ok (s.1 ++ l.filter (fun a => a ≠ "--help".toList), s.2 || decide ("--help".toList ∈ l)) := by
  induction l generalizing s with
  | nil => simp [Rel.argCollect]
  | cons a l ih =>
    unfold Rel.argCollect
    by_cases h : a = "--help".toList
    · rw [if_pos h, ih, List.filter_cons_of_neg (by simp only [ne_eq, h, not_true_eq_false, decide_false, Bool.false_eq_true, not_false_eq_true])]
      simp only [h, List.mem_cons, true_or, decide_true, Bool.or_true, Bool.true_or]
    · rw [if_neg h]
      show Rel.argCollect .release l (s.1 ++ [a], s.2) = _
      rw [ih, List.filter_cons_of_pos (by simpa only [ne_eq, decide_eq_true_eq] using h)]
      have : ("--help".toList ∈ a :: l) ↔ "--help".toList ∈ l := by
        simp only [List.mem_cons, or_iff_right_iff_imp]
        intro e; exact absurd e.symm h
      simp only [List.append_assoc, List.cons_append, List.nil_append, this]

theorem argScan_debug : ∀ (n : Nat) (l : List Text), l.length ≤ n → ∀ P : Args, Rel.argScan .debug l P = Args.scan l P
  | _, [], _, _ => by simp only [Rel.argScan, Args.scan]
  | _, [a], _, _ => by simp only [Rel.argScan, Args.scan, Rel.argCheck, checkFlag]
  | 0, _ :: _ :: _, hl, _ => by simp at hl
  | n + 1, a :: c :: rest, hl, P => by
    simp only [List.length_cons] at hl
    simp only [Rel.argScan, Args.scan]
    rw [argScan_debug n rest (by omega), argScan_debug n (c :: rest) (by simp only [List.length_cons]; omega)]
    rfl

theorem argCollect_debug (l : List Text) (s : List Text × Bool) : Rel.argCollect .debug l s = Args.collect l s := by
  induction l generalizing s with
  | nil => rfl
  | cons a l ih =>
    unfold Rel.argCollect Args.collect
    simp only [ih]
    rfl

/-- **C152.**  With assertions this is the constructor of C57. -/
theorem C152_debug (argv : List Text) : Rel.argOfArgv .debug argv = Args.ofArgv argv := by
  unfold Rel.argOfArgv Args.ofArgv
  rw [argCollect_debug]
  congr 1
  funext s
  exact argScan_debug _ _ le_rfl _

example : Rel.argOfArgv .debug ["prog".toList, "file".toList] = .error .assertFail := by decide

/-- **C152.**  Without assertions every command line is accepted, empty arguments included.  There is one way to read it in which
an argument takes the next one as its value unless that starts with two dashes, whatever it starts with itself.  Each text that
stands where a flag is expected gets the value after its first occurrence; an error is kept exactly if one occurs twice; help is
wanted exactly if `--help` occurs. -/
theorem C152_accepts (argv : List Text) :
    ∃ P, Rel.argOfArgv .release argv = .ok P ∧ (P.needHelp = true ↔ "--help".toList ∈ argv.drop 1) ∧
      ∃ g : Groups, g.Loose ∧ g.flat = (argv.drop 1).filter (fun a => a ≠ "--help".toList) ∧
        (∀ g' : Groups, g'.Loose → g'.flat = (argv.drop 1).filter (fun a => a ≠ "--help".toList) → g' = g) ∧
        (∀ f, P.values.get f = (g.find? (fun p => p.1 = f)).map (fun p => p.2.getD [])) ∧
        (P.errors = [] ↔ (g.map Prod.fst).Nodup) ∧ P.seen = [] ∧ P.help = [] := by
  obtain ⟨g, g1, g2⟩ := Groups.loose_exists _ ((argv.drop 1).filter (fun a => a ≠ "--help".toList)) le_rfl
  have e : Rel.argOfArgv .release argv = .ok (g.foldl (fun P p => P.store p.1 (p.2.getD []))
      { Args.new with needHelp := decide ("--help".toList ∈ argv.drop 1) }) := by
    unfold Rel.argOfArgv
    rw [argCollect_eq, ok_bind]
    simp only [List.nil_append, Bool.false_or]
    rw [← g2, argScan_loose g g1]
  obtain ⟨s1, s2, s3, s4, s5⟩ := store_groups g { Args.new with needHelp := decide ("--help".toList ∈ argv.drop 1) }
  refine ⟨_, e, ?_, g, g1, g2, fun g' l' e' => Groups.loose_unique l' g1 (e'.trans g2.symm), fun f => ?_, ?_, s2, s4⟩
  · rw [s3]; exact decide_eq_true_iff
  · rw [s1]; simp [Args.new, Map.get]
  · rw [s5]; simp [Args.new, Map.get]

example : (Rel.argOfArgv .release ["prog".toList, "file".toList, "-n".toList, "3".toList]).map
    (fun P => (P.values.get "file".toList, P.values.get "-n".toList, P.values.get "3".toList)) =
    .ok (some "-n".toList, none, some []) := by decide

/-- **C152.**  A command line accepted with assertions gives the same parser without them. -/
theorem C152_same (argv : List Text) (P : Args) (h : Rel.argOfArgv .debug argv = .ok P) :
    Rel.argOfArgv .release argv = .ok P := by
  rw [C152_debug] at h
  unfold Args.ofArgv at h
  rw [bind_eq_ok] at h
  obtain ⟨s, h1, h2⟩ := h
  rw [collect_eq _ (collect_inv h1), List.nil_append] at h1
  obtain rfl := Except.ok.inj h1
  simp only at h2
  obtain ⟨g, g1, g2⟩ := scan_inv _ _ le_rfl _ _ h2
  rw [← g2, scan_groups g g1] at h2
  unfold Rel.argOfArgv
  rw [argCollect_eq, ok_bind]
  simp only [List.nil_append]
  rw [← g2, argScan_loose g g1.loose]
  exact h2

example : ∃ P, Rel.argOfArgv .debug ["prog".toList, "-n".toList, "3".toList, "--help".toList, "--v".toList] = .ok P :=
  ⟨_, rfl⟩

/-- **C152.**  A stray word shifts the reading: a flag after it that starts with a single dash is taken for its value, and is then
unknown to the parser unless it comes again. -/
theorem C152_shift (prog word flag value : Text) (h1 : word ≠ "--help".toList) (h2 : ¬ Long flag) (h3 : value ≠ "--help".toList)
    (hw : word ≠ flag) (hv : value ≠ flag) :
    ∃ P, Rel.argOfArgv .release [prog, word, flag, value] = .ok P ∧ P.values.get word = some flag ∧ P.values.get flag = none := by
  obtain ⟨P, e, _, g, g1, g2, g3, g4, _⟩ := C152_accepts [prog, word, flag, value]
  have hf : flag ≠ "--help".toList := by rintro rfl; exact h2 (by unfold Long; decide)
  have hfl : ([prog, word, flag, value].drop 1).filter (fun a => decide (a ≠ "--help".toList)) = [word, flag, value] := by
    show [word, flag, value].filter _ = _
    rw [List.filter_eq_self]
    intro a ha
    simp only [List.mem_cons, List.not_mem_nil, or_false] at ha
    rcases ha with rfl | rfl | rfl <;> simp only [decide_eq_true_eq] <;> assumption
  have hg : ([(word, some flag), (value, none)] : Groups) = g :=
    g3 _ ⟨h2, by simp, trivial⟩ (by rw [hfl]; rfl)
  subst hg
  refine ⟨P, e, ?_, ?_⟩
  · rw [g4]; simp
  · rw [g4]; simp [hw, hv]

example : "file".toList ≠ "--help".toList ∧ ¬ Long "-n".toList ∧ "3".toList ≠ "--help".toList ∧ "file".toList ≠ "-n".toList ∧
    "3".toList ≠ "-n".toList := by unfold Long; decide

end Util
end Linalg
