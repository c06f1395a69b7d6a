import Verif.Props.Print
import Verif.Props.Util
import Mathlib.Data.List.Sort

/-!
# C111: what `ShowErrors`, `ShowHelp` and `ShowOptions` write
-/

namespace Linalg
open Cpp Io Print
namespace Util

variable {α β : Type}

/-! ## Order of keys -/

theorem textLt_irrefl (a : Text) : textLt a a = false := by
  induction a with
  | nil => rfl
  | cons c a ih => simp [textLt, ih]

theorem textLt_total {a b : Text} (h1 : textLt a b = false) (h2 : textLt b a = false) : a = b := by
  induction a generalizing b with
  | nil => cases b with
    | nil => rfl
    | cons d b => simp [textLt] at h1
  | cons c a ih => cases b with
    | nil => simp [textLt] at h2
    | cons d b =>
      simp only [textLt] at h1 h2
      split at h1
      · cases h1
      · rename_i hcd
        rw [if_neg hcd] at h2
        split at h1
        · rename_i hdc; rw [if_pos hdc] at h2; cases h2
        · rename_i hdc
          rw [if_neg hdc] at h2
          have : c = d := Char.toNat_inj.mp (by omega)
          rw [this, ih h1 h2]

theorem textLt_trans {a b c : Text} (h1 : textLt a b = true) (h2 : textLt b c = true) : textLt a c = true := by
  induction a generalizing b c with
  | nil => cases c with
    | nil => cases b <;> simp [textLt] at h2
    | cons z c => rfl
  | cons x a ih => cases b with
    | nil => simp [textLt] at h1
    | cons y b => cases c with
      | nil => simp [textLt] at h2
      | cons z c =>
        simp only [textLt] at h1 h2 ⊢
        by_cases hxy : x.toNat < y.toNat
        · by_cases hyz : y.toNat < z.toNat
          · rw [if_pos (by omega)]
          · rw [if_neg hyz] at h2
            by_cases hzy : z.toNat < y.toNat
            · rw [if_pos hzy] at h2; cases h2
            · rw [if_pos (by omega)]
        · rw [if_neg hxy] at h1
          by_cases hyx : y.toNat < x.toNat
          · rw [if_pos hyx] at h1; cases h1
          · rw [if_neg hyx] at h1
            by_cases hyz : y.toNat < z.toNat
            · rw [if_pos (by omega)]
            · rw [if_neg hyz] at h2
              by_cases hzy : z.toNat < y.toNat
              · rw [if_pos hzy] at h2; cases h2
              · rw [if_neg hzy] at h2
                rw [if_neg (by omega), if_neg (by omega)]
                exact ih h1 h2

theorem insert_perm (p : Text × β) (l : List (Text × β)) : (Map.insert p l).Perm (p :: l) := by
  induction l with
  | nil => exact List.Perm.refl _
  | cons q l ih =>
    simp only [Map.insert]
    split
    · exact (List.Perm.cons q ih).trans (List.Perm.swap p q l)
    · exact List.Perm.refl _

theorem inOrder_perm (m : Map β) : m.inOrder.Perm m := by
  unfold Map.inOrder
  induction m with
  | nil => exact List.Perm.refl _
  | cons p m ih => exact (insert_perm p _).trans (List.Perm.cons p ih)

theorem insert_sorted (p : Text × β) (l : List (Text × β)) (h : l.Pairwise (fun a b => textLt a.1 b.1 = true)) (hp : ∀ q ∈ l, q.1 ≠ p.1) :
    (Map.insert p l).Pairwise (fun a b => textLt a.1 b.1 = true) := by
  induction l with
  | nil => simp [Map.insert]
  | cons q l ih =>
    simp only [Map.insert]
    rw [List.pairwise_cons] at h
    by_cases hq : textLt q.1 p.1 = true
    · rw [if_pos hq, List.pairwise_cons]
      refine ⟨fun r hr => ?_, ih h.2 (fun r hr => hp r (by simp [hr]))⟩
      rcases List.mem_cons.mp ((insert_perm p l).mem_iff.mp hr) with rfl | hr
      · exact hq
      · exact h.1 r hr
    · rw [if_neg hq, List.pairwise_cons, List.pairwise_cons]
      have hpq : textLt p.1 q.1 = true := by
        by_contra hn
        exact hp q (by simp) (textLt_total (by simpa using hq) (by simpa using hn))
      refine ⟨fun r hr => ?_, h.1, h.2⟩
      rcases List.mem_cons.mp hr with rfl | hr
      · exact hpq
      · exact textLt_trans hpq (h.1 r hr)

theorem inOrder_sorted (m : Map β) (h : (m.map Prod.fst).Nodup) : m.inOrder.Pairwise (fun a b => textLt a.1 b.1 = true) := by
  unfold Map.inOrder
  induction m with
  | nil => simp
  | cons p m ih =>
    simp only [List.map_cons, List.nodup_cons] at h
    refine insert_sorted p _ (ih h.2) (fun q hq e => h.1 ?_)
    rw [← e]
    exact List.mem_map_of_mem ((inOrder_perm m).mem_iff.mp hq)

/-! ## Requests -/

theorem set_nodup (m : Map β) (k : Text) (v : β) (h : (m.map Prod.fst).Nodup) : ((m.set k v).map Prod.fst).Nodup := by
  unfold Map.set
  rw [List.map_cons, List.nodup_cons]
  refine ⟨by simp, ?_⟩
  exact h.sublist (List.Sublist.map _ List.filter_sublist)

/-- **C111.** `Parse` is a request: it leaves in the parser that the flag was asked for, with the help text and the text of the value that the argument
has afterwards. -/
theorem C111_parse [Zero α] (F : Fmt α) (P : Args) (arg : α) (b : Bool) (flag help : Text) :
    (P.parse F arg flag help).2 = P.request ⟨flag, help, F.put (P.parse F arg flag help).1⟩ ∧
    (P.parseBool b flag help).2 = P.request ⟨flag, help, if (P.parseBool b flag help).1 then "true".toList else "false".toList⟩ := ⟨rfl, rfl⟩

/-- The state after requests: keys are different, a flag that was asked for is there with the text of the first request, and the help text of the last. -/
structure Asked (P : Args) (rs : List Request) : Prop where
  seen_nodup : (P.seen.map Prod.fst).Nodup
  help_nodup : (P.help.map Prod.fst).Nodup
  seen_eq : ∀ f, P.seen.get f = (rs.find? (fun r => r.flag = f)).map Request.shown
  help_eq : ∀ f, P.help.get f = (rs.reverse.find? (fun r => r.flag = f)).map Request.help

theorem Asked.request {P : Args} {rs : List Request} (h : Asked P rs) (r : Request) : Asked (P.request r) (rs ++ [r]) := by
  have hs : ∀ f, (rs ++ [r]).find? (fun r => r.flag = f) = (rs.find? (fun r => r.flag = f)).or (if r.flag = f then some r else none) := by
    intro f
    rw [List.find?_append]
    congr 1
    by_cases e : r.flag = f <;> simp [e]
  have hh : ∀ f, (({ P with help := P.help.set r.flag r.help } : Args).help).get f
      = ((rs ++ [r]).reverse.find? (fun r => r.flag = f)).map Request.help := by
    intro f
    show (P.help.set r.flag r.help).get f = _
    rw [get_set, List.reverse_append, List.reverse_singleton, List.singleton_append]
    by_cases e : r.flag = f
    · rw [if_pos e, List.find?_cons_of_pos (by simp [e])]; rfl
    · rw [if_neg e, List.find?_cons_of_neg (by simpa using e), h.help_eq]
  unfold Args.request Args.record
  simp only
  split
  · rename_i hn
    refine ⟨set_nodup _ _ _ h.seen_nodup, set_nodup _ _ _ h.help_nodup, fun f => ?_, hh⟩
    show (P.seen.set r.flag r.shown).get f = _
    rw [get_set, hs]
    by_cases e : r.flag = f
    · rw [h.seen_eq, e] at hn
      rw [if_pos e, if_pos e, Option.map_eq_none_iff.mp hn]
      rfl
    · rw [if_neg e, if_neg e, Option.or_none, h.seen_eq]
  · rename_i v hn
    refine ⟨h.seen_nodup, set_nodup _ _ _ h.help_nodup, fun f => ?_, hh⟩
    show P.seen.get f = _
    rw [hs, h.seen_eq]
    by_cases e : r.flag = f
    · rw [h.seen_eq, e] at hn
      obtain ⟨x, hx, _⟩ := Option.map_eq_some_iff.mp hn
      rw [hx]; rfl
    · rw [if_neg e, Option.or_none]

theorem scan_maps (l : List Text) : ∀ (P Q : Args), Args.scan l P = .ok Q → Q.seen = P.seen ∧ Q.help = P.help := by
  have store : ∀ (P : Args) f v, (P.store f v).seen = P.seen ∧ (P.store f v).help = P.help := by
    intro P f v; unfold Args.store; split <;> exact ⟨rfl, rfl⟩
  induction hn : l.length using Nat.strong_induction_on generalizing l with
  | _ n ih =>
    intro P Q h
    match l, hn, h with
    | [], _, h => simp only [Args.scan] at h; cases h; exact ⟨rfl, rfl⟩
    | [a], _, h =>
      simp only [Args.scan] at h
      obtain ⟨_, _, h⟩ := bind_eq_ok.mp h
      cases h
      exact store P a []
    | a :: b :: rest, hn, h =>
      simp only [Args.scan] at h
      obtain ⟨_, _, h⟩ := bind_eq_ok.mp h
      split at h
      · obtain ⟨e1, e2⟩ := ih rest.length (by simp at hn; omega) rest rfl _ _ h
        rw [e1, e2]; exact store P a b
      · obtain ⟨e1, e2⟩ := ih (b :: rest).length (by simp at hn ⊢; omega) (b :: rest) rfl _ _ h
        rw [e1, e2]; exact store P a []

/-- **C111.** After a command line and any requests, what the parser holds to show is the first text shown for each flag that was asked for, and the
last help text. -/
theorem C111_history (argv : List Text) (P : Args) (h : Args.ofArgv argv = .ok P) (rs : List Request) : Asked (rs.foldl Args.request P) rs := by
  have h0 : Asked P [] := by
    unfold Args.ofArgv at h
    obtain ⟨s, _, h2⟩ := bind_eq_ok.mp h
    obtain ⟨e1, e2⟩ := scan_maps _ _ _ h2
    refine ⟨by rw [e1]; exact List.nodup_nil, by rw [e2]; exact List.nodup_nil, fun f => by rw [e1]; rfl, fun f => by rw [e2]; rfl⟩
  suffices H : ∀ (rs qs : List Request) (P : Args), Asked P qs → Asked (rs.foldl Args.request P) (qs ++ rs) by simpa using H rs [] P h0
  intro rs
  induction rs with
  | nil => intro qs P hP; simpa using hP
  | cons r rs ih => intro qs P hP; have := ih (qs ++ [r]) _ (hP.request r); simpa using this

theorem mem_iff_get {m : Map β} (h : (m.map Prod.fst).Nodup) (f : Text) (v : β) : (f, v) ∈ m ↔ m.get f = some v := by
  unfold Map.get
  induction m with
  | nil => simp
  | cons p m ih =>
    simp only [List.map_cons, List.nodup_cons] at h
    by_cases e : p.1 = f
    · rw [List.find?_cons_of_pos (by simpa using e)]
      subst e
      simp only [List.mem_cons, Option.map_some, Option.some.injEq]
      constructor
      · rintro (e | hm)
        · rw [← e]
        · exact absurd (List.mem_map_of_mem (f := Prod.fst) hm) h.1
      · intro e; left; rw [← e]
    · rw [List.find?_cons_of_neg (by simpa using e), ← ih h.2]
      simp only [List.mem_cons]
      constructor
      · rintro (e' | hm)
        · exact absurd (by rw [← e']) e
        · exact hm
      · exact Or.inr

theorem longest_le (l : List Text) : ∀ t ∈ l, t.length ≤ longest l := by
  induction l with
  | nil => simp
  | cons a l ih =>
    intro t ht
    show t.length ≤ max a.length (longest l)
    rcases List.mem_cons.mp ht with rfl | ht
    · exact le_max_left _ _
    · exact (ih t ht).trans (le_max_right _ _)

theorem foldl_widths (l : List (Text × Text)) (w : Nat × Nat) :
    l.foldl (fun (w : Nat × Nat) o => (max w.1 o.1.length, max w.2 o.2.length)) w
      = (max w.1 (longest (l.map Prod.fst)), max w.2 (longest (l.map Prod.snd))) := by
  induction l generalizing w with
  | nil => simp [longest]
  | cons o l ih =>
    rw [List.foldl_cons, ih]
    simp [longest, max_assoc]

/-! ## The texts -/

/-- **C111.** `ShowErrors` writes nothing, and does not touch the stream, if there are no errors; else a line for each, in the order in which they occurred. -/
theorem C111_errors (P : Args) (out : OStream) :
    (P.errors = [] → P.showErrors out = out) ∧
    (P.errors ≠ [] → P.showErrors out = out.wrote (out.field "Parse Errors:\n".toList ++ lines (P.errors.map (fun e => "  ".toList ++ e)))) := by
  refine ⟨fun h => by simp [Args.showErrors, h], fun h => ?_⟩
  unfold Args.showErrors
  simp only
  rw [if_pos (by simpa using h), put_eq out, OStream.wrote, foldl_write out.flags _ (fun e => ("  ".toList ++ e) ++ ['\n']) (by intro T b; simp),
    flatMap_lines]
  simp [OStream.wrote]

/-- **C111.** `ShowHelp` writes a line for each flag that was asked for, in the order of the flags. -/
theorem C111_help (P : Args) (rs : List Request) (hP : Asked P rs) (out : OStream) :
    P.showHelp out = out.wrote (out.field "Program Help:\n".toList ++ lines (P.help.inOrder.map (fun o => "  ".toList ++ o.1 ++ " ".toList ++ o.2))) ∧
    P.help.inOrder.Pairwise (fun a b => textLt a.1 b.1 = true) ∧
    ∀ f h, (f, h) ∈ P.help.inOrder ↔ (rs.reverse.find? (fun r => r.flag = f)).map Request.help = some h := by
  refine ⟨?_, inOrder_sorted _ hP.help_nodup, fun f h => ?_⟩
  · unfold Args.showHelp
    simp only
    rw [put_eq out, OStream.wrote, foldl_write out.flags _ (fun o : Text × Text => ("  ".toList ++ o.1 ++ " ".toList ++ o.2) ++ ['\n']) (by intro T b; simp),
      flatMap_lines]
    simp [OStream.wrote]
  · rw [(inOrder_perm _).mem_iff, ← hP.help_eq]
    exact mem_iff_get hP.help_nodup f h

/-- **C111.** `ShowOptions` writes a line for each flag that was asked for, in the order of the flags, with the value that the first request left and
the last help text; the columns are as wide as the longest flag and the longest value need.  The parser is not changed, although the function may
change the table of help texts.  The stream is left adjusting to the left if there is an option. -/
theorem C111_options (P : Args) (rs : List Request) (hP : Asked P rs) (out : OStream) :
    P.showOptions out = (P, ⟨out.text ++ (out.field "Program Options:\n".toList ++ lines (P.seen.inOrder.map (fun o =>
      optionLine (longest (P.seen.inOrder.map Prod.fst)) (longest (P.seen.inOrder.map Prod.snd)) o.1 o.2 ((P.help.get o.1).getD [])))), 0,
      { out.flags with left := out.flags.left || !P.seen.isEmpty }⟩) ∧
    P.seen.inOrder.Pairwise (fun a b => textLt a.1 b.1 = true) ∧
    (∀ f v, (f, v) ∈ P.seen.inOrder ↔ (rs.find? (fun r => r.flag = f)).map Request.shown = some v) ∧
    (∀ o ∈ P.seen.inOrder, o.1.length ≤ longest (P.seen.inOrder.map Prod.fst) ∧ o.2.length ≤ longest (P.seen.inOrder.map Prod.snd)) := by
  refine ⟨?_, inOrder_sorted _ hP.seen_nodup, fun f v => ?_, fun o ho =>
    ⟨longest_le _ _ (List.mem_map_of_mem ho), longest_le _ _ (List.mem_map_of_mem ho)⟩⟩
  · unfold Args.showOptions
    simp only
    rw [foldl_widths, put_eq out, OStream.wrote]
    simp only [Nat.zero_max]
    have hhelp : ∀ o ∈ P.seen.inOrder, P.help.get o.1 ≠ none := by
      intro o ho
      have h1 := (mem_iff_get hP.seen_nodup o.1 o.2).mp ((inOrder_perm _).mem_iff.mp ho)
      rw [hP.seen_eq] at h1
      obtain ⟨r, hr, _⟩ := Option.map_eq_some_iff.mp h1
      rw [hP.help_eq]
      intro hn
      have hn := Option.map_eq_none_iff.mp hn
      rw [List.find?_eq_none] at hn
      have h2 := List.find?_some hr
      exact hn r (List.mem_reverse.mpr (List.mem_of_find?_eq_some hr)) h2
    have hemp : P.seen.isEmpty = P.seen.inOrder.isEmpty := by
      have := (inOrder_perm P.seen).length_eq
      cases h1 : P.seen <;> cases h2 : P.seen.inOrder <;> simp_all
    rw [hemp]
    generalize longest (P.seen.inOrder.map Prod.fst) = W at *
    generalize longest (P.seen.inOrder.map Prod.snd) = V at *
    generalize P.seen.inOrder = l at *
    generalize out.field "Program Options:\n".toList = t0
    have key : ∀ (l : List (Text × Text)) (T : Text) (fl : Flags), (∀ o ∈ l, P.help.get o.1 ≠ none) →
        l.foldl (fun (s : Args × OStream) option =>
          let out := ((((s.2.put "  ".toList).left).setw ((W + 2 : Nat) : Int)).put option.1 |>.setw ((V + 2 : Nat) : Int)).put option.2
          let P := match s.1.help.get option.1 with
            | none => { s.1 with help := s.1.help.set option.1 [] }
            | some _ => s.1
          (P, (out.put ((P.help.get option.1).getD [])).put "\n".toList)) (P, ⟨T, 0, fl⟩)
          = (P, ⟨T ++ lines (l.map (fun o => optionLine W V o.1 o.2 ((P.help.get o.1).getD []))), 0, { fl with left := fl.left || !l.isEmpty }⟩) := by
      intro l
      induction l with
      | nil => intro T fl _; simp [lines]
      | cons o l ih =>
        intro T fl ho
        rw [List.foldl_cons]
        obtain ⟨h, hh⟩ := Option.ne_none_iff_exists'.mp (ho o (by simp))
        simp only [hh]
        have e : (((((((⟨T, 0, fl⟩ : OStream).put "  ".toList).left).setw ((W + 2 : Nat) : Int)).put o.1 |>.setw ((V + 2 : Nat) : Int)).put o.2).put
            ((some h).getD [])).put "\n".toList
            = ⟨T ++ (optionLine W V o.1 o.2 h ++ ['\n']), 0, { fl with left := true }⟩ := by
          rw [put_mk, OStream.left, setw_put, setw_put, put_mk, put_mk]
          simp [optionLine]
        rw [e, ih _ _ (fun o h => ho o (by simp [h]))]
        simp [lines, hh]
    refine (key l _ _ hhelp).trans ?_
    simp
  · rw [(inOrder_perm _).mem_iff, ← hP.seen_eq]
    exact mem_iff_get hP.seen_nodup f v

/-- **C111** fails for the state of the stream: a matrix printed after `ShowOptions` does not look as it did before. -/
theorem C111_left_false : ∃ (P : Args) (A : Csr Int) (o1 o2 : OStream), A.WF ∧ (∃ rs, Asked P rs) ∧
    A.print intShow [] ⟨[], 0, Flags.new⟩ = .ok o1 ∧
    A.print intShow [] { (P.showOptions ⟨[], 0, Flags.new⟩).2 with text := [] } = .ok o2 ∧ o1.text ≠ o2.text ∧
    o1.text = "\n(0, 0)      5\n\n".toList ∧ o2.text = "\n(0, 0) 5     \n\n".toList := by
  have h := C111_history ["prog".toList] Args.new (by decide +kernel) [⟨"--a".toList, [], "1".toList⟩]
  exact ⟨Args.new.request ⟨"--a".toList, [], "1".toList⟩, ⟨1, 1, [0, 1], [0], [5]⟩, ⟨"\n(0, 0)      5\n\n".toList, 0, Flags.new⟩,
    ⟨"\n(0, 0) 5     \n\n".toList, 0, ⟨true, false, 6⟩⟩, by decide, ⟨_, h⟩, by decide +kernel, by decide +kernel, by decide +kernel, rfl, rfl⟩

/-! ## Examples -/

example : ∃ P, Args.ofArgv (["prog", "--size", "3", "--v"].map String.toList) = .ok P ∧
    let P := (P.parse intFmt 1 "--size".toList "number of rows".toList).2
    let P := (P.parseBool false "--v".toList "verbose".toList).2
    (P.showOptions OStream.new).2.text
      = "Program Options:\n  --size  3     number of rows\n  --v     true  verbose\n".toList ∧
    (P.showHelp OStream.new).text = "Program Help:\n  --size number of rows\n  --v verbose\n".toList :=
  ⟨⟨[], [], [("--v".toList, []), ("--size".toList, "3".toList)], [], false⟩, by decide +kernel⟩

example : ({ Args.new with errors := ["--a entered multiple times!".toList] }.showErrors OStream.new).text
    = "Parse Errors:\n  --a entered multiple times!\n".toList := by decide +kernel

end Util
end Linalg
