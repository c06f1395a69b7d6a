import Verif.Model.Io

/-!
# Command line arguments and timers (include/argparser.hpp, src/argparser.cpp, include/timer.hpp, src/timer.cpp)

A string is a list of characters.  A `std::map` is a list of pairs with different keys, newest first; only look-up and
assignment are used by the functions modelled here, so the order does not matter (`ShowErrors`, `ShowHelp` and `ShowOptions` are in
`Model/Print.lean`).  A time point is an element of a type with subtraction, and the clock is the argument of `click`.
-/

namespace Linalg
open Cpp

namespace Util
open Io

variable {α β : Type}

/-! ## Maps -/

/-- A `std::map` from strings. -/
abbrev Map (β : Type) := List (Text × β)

/-- `m.find(k)`. -/
def Map.get (m : Map β) (k : Text) : Option β := (m.find? (fun p => p.1 = k)).map Prod.snd

/-- `m[k] = v`. -/
def Map.set (m : Map β) (k : Text) (v : β) : Map β := (k, v) :: m.filter (fun p => p.1 ≠ k)

/-! ## ArgParser -/

/-- `IsFlag(arg)` (src/argparser.cpp:6-11). -/
def isFlag (arg : Text) : Bool := arg.take 2 = "--".toList

/-- `class ArgParser` (include/argparser.hpp:21-68). -/
structure Args where
  help : Map Text
  errors : List Text
  values : Map Text
  seen : Map Text
  needHelp : Bool
  deriving DecidableEq, Repr

/-- The default constructor. -/
def Args.new : Args := ⟨[], [], [], [], false⟩

/-- Storing a value, or an error if there is one already (src/argparser.cpp:39-46, 53-60). -/
def Args.store (P : Args) (flag value : Text) : Args :=
  match P.values.get flag with
  | none => { P with values := P.values.set flag value }
  | some _ => { P with errors := P.errors ++ [flag ++ " entered multiple times!".toList] }

/-- The two assertions at the start of the loop body (src/argparser.cpp:33-34). -/
def checkFlag (arg : Text) : Res Unit := do
  cassert (arg.length > 0)
  let c ← rd arg 0
  cassert (c = '-')

/-- The loop over the entries (src/argparser.cpp:31-64). -/
def Args.scan : List Text → Args → Res Args
  | [], P => .ok P
  | [a], P => do
    checkFlag a
    .ok (P.store a [])
  | a :: b :: rest, P => do
    checkFlag a
    if isFlag b = false then Args.scan rest (P.store a b) else Args.scan (b :: rest) (P.store a [])

/-- The first loop (src/argparser.cpp:19-29): every argument that is not `--help` is kept; it must not be empty. -/
def Args.collect : List Text → List Text × Bool → Res (List Text × Bool)
  | [], s => .ok s
  | a :: rest, s =>
    if a = "--help".toList then Args.collect rest (s.1, true)
    else do
      cassert (a.length > 0)
      Args.collect rest (s.1 ++ [a], s.2)

/-- `ArgParser(int argc, const char* const* argv)` (src/argparser.cpp:13-65). -/
def Args.ofArgv (argv : List Text) : Res Args := do
  let s ← Args.collect (argv.drop 1) ([], false)
  Args.scan s.1 { Args.new with needHelp := s.2 }

/-- Recording that a flag was asked for (include/argparser.hpp:83-93, src/argparser.cpp:132-142). -/
def Args.record (P : Args) (flag shown : Text) : Args :=
  match P.seen.get flag with
  | none => { P with seen := P.seen.set flag shown }
  | some _ => { P with errors := P.errors ++ [flag ++ " requested to be parsed multiple times!".toList] }

/-- `Parse(T& arg, flag, help)` (include/argparser.hpp:73-94). -/
def Args.parse [Zero α] (F : Fmt α) (P : Args) (arg : α) (flag help : Text) : α × Args :=
  let P := { P with help := P.help.set flag help }
  let arg := match P.values.get flag with
    | none => arg
    | some v => ((extract F ⟨v, false⟩ (some arg)).1).getD arg
  (arg, P.record flag (F.put arg))

/-- `Parse(bool& arg, flag, help)` (src/argparser.cpp:122-143). -/
def Args.parseBool (P : Args) (arg : Bool) (flag help : Text) : Bool × Args :=
  let P := { P with help := P.help.set flag help }
  let arg := match P.values.get flag with
    | none => arg
    | some _ => !arg
  (arg, P.record flag (if arg then "true".toList else "false".toList))

/-- `IsGood()` (src/argparser.cpp:145-148). -/
def Args.isGood (P : Args) : Bool := P.errors.length == 0 && !P.needHelp

/-! ## Timer -/

/-- `class Timer` (include/timer.hpp:15-28). -/
structure Timer (α : Type) where
  times : List α
  deriving DecidableEq, Repr

/-- `Click()` when the clock shows `now` (src/timer.cpp:14-17). -/
def Timer.click (T : Timer α) (now : α) : Timer α := ⟨T.times ++ [now]⟩

/-- `Timer(Start start)` (src/timer.cpp:6-12). -/
def Timer.new (start : Bool) (now : α) : Timer α := if start then Timer.click ⟨[]⟩ now else ⟨[]⟩

/-- `TotalTime()` (src/timer.cpp:19-28). -/
def Timer.total [Zero α] [Sub α] (T : Timer α) : Res α :=
  if T.times.length < 2 then .ok 0
  else do
    let b ← rd T.times ((T.times.length : Int) - 1)
    let a ← rd T.times 0
    .ok (b - a)

/-- `operator[](int index)` (src/timer.cpp:30-37). -/
def Timer.get [Sub α] (T : Timer α) (index : Int) : Res α := do
  cassert (index ≥ 0)
  cassert (index < (T.times.length : Int) - 1)
  let b ← rd T.times (index + 1)
  let a ← rd T.times index
  .ok (b - a)

end Util
end Linalg
