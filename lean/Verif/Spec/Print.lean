import Verif.Model.Print
import Verif.Spec.Io

/-!
# What the printed text says
-/

namespace Linalg
open Io

namespace Print
variable {α : Type}

/-- The stream after `t` has been written to it: the formatting state is the old one. -/
def OStream.wrote (out : OStream) (t : Text) : OStream := ⟨out.text ++ t, 0, out.flags⟩

/-- What is written for text when the stream still has a width from before. -/
def OStream.field (out : OStream) (t : Text) : Text := pad out.flags.left out.width t

/-- Lines, each ended by a newline. -/
def lines (ls : List Text) : Text := ls.flatMap (fun l => l ++ ['\n'])

/-- A line for an entry: row and column in brackets, and the value in a field of the given width. -/
def entryLine (left : Bool) (width : Int) (e : Int × Int × Text) : Text :=
  '(' :: (showInt e.1 ++ ',' :: ' ' :: (showInt e.2.1 ++ ')' :: ' ' :: pad left width e.2.2))

/-- Entries with the text of their values. -/
def shown (F : Show α) (fl : Flags) (l : List (Int × Int × α)) : List (Int × Int × Text) := l.map (fun e => (e.1, e.2.1, F fl e.2.2))

/-- The text for a list of entries under a label: a line for each and an empty line. -/
def section_ (left : Bool) (width : Int) (label : Text) (l : List (Int × Int × Text)) : Text :=
  label ++ '\n' :: lines (l.map (entryLine left width) ++ [[]])

/-- No space and no newline. -/
def Word (t : Text) : Prop := ' ' ∉ t ∧ '\n' ∉ t

/-- The number that a decimal text stands for. -/
def textVal (t : Text) : ℚ :=
  (if t.head? = some '-' then -1 else 1) * (digitsVal (t.filter isDigit) : ℚ) / 10 ^ ((t.dropWhile (fun c => c ≠ '.')).drop 1).length

/-- The state in which `DenseMatrix::Print` writes numbers. -/
def denseFlags (precision : Int) : Flags := ⟨false, true, precision⟩

/-- `double` in the notation of `DenseMatrix::Print`; in the other notation as `G` says. -/
def ratShow (G : Show ℚ) : Show ℚ := fun fl q => if fl.fixed then fixedText fl.precision q else G fl q

/-- The label of a block. -/
def blockLabel (i j : Int) : Text := "block (".toList ++ showInt i ++ ",".toList ++ showInt j ++ ")".toList

end Print

/-- The stored entries of a `LilMatrix`, as (row, column, value), row by row. -/
def Lil.triples {α : Type} (L : Lil α) : List (Int × Int × α) :=
  L.entries.zipIdx.flatMap (fun p => p.1.map (fun e => ((p.2 : Int), e.1, e.2)))

end Linalg

namespace Linalg.Util
open Io Print

/-- What a call of `Parse` leaves in the parser when the value of the argument is shown as `shown` afterwards. -/
structure Request where
  flag : Text
  help : Text
  shown : Text
  deriving DecidableEq

/-- A request recorded. -/
def Args.request (P : Args) (r : Request) : Args := { P with help := P.help.set r.flag r.help }.record r.flag r.shown

/-- The length of the longest text. -/
def longest (l : List Text) : Nat := l.foldr (fun t n => max t.length n) 0

/-- The line for an option: the flag and the value in columns that are wide enough for `W` and `V` characters and two spaces, then the help text. -/
def optionLine (W V : Nat) (flag value help : Text) : Text := "  ".toList ++ pad true (W + 2) flag ++ pad true (V + 2) value ++ help

end Linalg.Util
