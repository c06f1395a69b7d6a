import Verif.Model.Util
import Verif.Model.Release

/-! # Reading the command line with and without NDEBUG -/

namespace Linalg
namespace Rel
open Cpp Util Io

/-- The two assertions at the start of the loop body (src/argparser.cpp:33-34): the character is read only if assertions are on. -/
def argCheck (b : Build) (arg : Text) : Res Unit :=
  match b with
  | .debug => do
    cassert (arg.length > 0)
    let c ← rd arg 0
    cassert (c = '-')
  | .release => .ok ()

/-- The loop over the entries (src/argparser.cpp:31-64). -/
def argScan (b : Build) : List Text → Args → Res Args
  | [], P => .ok P
  | [a], P => do
    argCheck b a
    .ok (P.store a [])
  | a :: c :: rest, P => do
    argCheck b a
    if isFlag c = false then argScan b rest (P.store a c) else argScan b (c :: rest) (P.store a [])

/-- The first loop (src/argparser.cpp:19-29). -/
def argCollect (b : Build) : List Text → List Text × Bool → Res (List Text × Bool)
  | [], s => .ok s
  | a :: rest, s =>
    if a = "--help".toList then argCollect b rest (s.1, true)
    else do
      b.assert (a.length > 0)
      argCollect b rest (s.1 ++ [a], s.2)

/-- `ArgParser(int argc, const char* const* argv)` (src/argparser.cpp:13-65). -/
def argOfArgv (b : Build) (argv : List Text) : Res Args := do
  let s ← argCollect b (argv.drop 1) ([], false)
  argScan b s.1 { Args.new with needHelp := s.2 }

end Rel
end Linalg
