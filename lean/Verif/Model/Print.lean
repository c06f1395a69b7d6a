import Verif.Model.Util
import Verif.Model.Lil
import Verif.Model.Block
import Verif.Model.Par
import Mathlib.Data.Rat.Floor

/-!
# Formatted output (the `Print` functions, `operator<<`, `ShowErrors`, `ShowHelp`, `ShowOptions`)

An output stream is the text written so far, the field width that the next value will use, and the formatting state that stays: left or right
adjustment, fixed notation and precision.  These are all that the code sets; the rest of the state (base, fill character, locale) is taken to
be the default, and writing does not fail.  How a number is turned into text under a given state is a parameter; for `int` it is `showInt`, for
`double` in fixed notation `fixedText` (a `double` is a rational number, so there is no negative zero).
-/

namespace Linalg
open Cpp Io

namespace Print

/-- The formatting state that stays. -/
structure Flags where
  left : Bool
  fixed : Bool
  precision : Int
  deriving DecidableEq, Repr

/-- The state of a new stream. -/
def Flags.new : Flags := ⟨false, false, 6⟩

/-- An output stream. -/
structure OStream where
  text : Text
  width : Int
  flags : Flags
  deriving DecidableEq, Repr

/-- A new `std::stringstream`. -/
def OStream.new : OStream := ⟨[], 0, Flags.new⟩

/-- Text in a field: filled up with spaces, before it or after it. -/
def pad (left : Bool) (width : Int) (t : Text) : Text :=
  if left then t ++ List.replicate (width - t.length).toNat ' ' else List.replicate (width - t.length).toNat ' ' ++ t

/-- `out << t`: uses up the width. -/
def OStream.put (out : OStream) (t : Text) : OStream := { out with text := out.text ++ pad out.flags.left out.width t, width := 0 }

/-- `out << std::setw(n)`. -/
def OStream.setw (out : OStream) (n : Int) : OStream := { out with width := n }

/-- `out << std::left`. -/
def OStream.left (out : OStream) : OStream := { out with flags := { out.flags with left := true } }

/-- `out << std::fixed`. -/
def OStream.fixed (out : OStream) : OStream := { out with flags := { out.flags with fixed := true } }

/-- `out << std::setprecision(n)`. -/
def OStream.setprecision (out : OStream) (n : Int) : OStream := { out with flags := { out.flags with precision := n } }

/-- How values of a type are written, padding apart. -/
abbrev Show (α : Type) := Flags → α → Text

/-- `out << v`. -/
def OStream.val {α : Type} (out : OStream) (F : Show α) (v : α) : OStream := out.put (F out.flags v)

/-- `int`. -/
def intShow : Show Int := fun _ i => showInt i

/-- A rational number, not negative, to the nearest integer; a tie to the even one. -/
def roundEven (q : ℚ) : Nat :=
  let n := ⌊q⌋.toNat
  let r := q - n
  if r < 1 / 2 then n else if 1 / 2 < r then n + 1 else if n % 2 = 0 then n else n + 1

/-- The last `p` decimal digits of `n`. -/
def lastDigits : Nat → Nat → Text
  | 0, _ => []
  | p + 1, n => lastDigits p (n / 10) ++ [digitChar (n % 10)]

/-- What `printf("%.*f")` writes: a negative precision counts as 6. -/
def fixedText (precision : Int) (q : ℚ) : Text :=
  let p := if precision < 0 then 6 else precision.toNat
  let n := roundEven (|q| * 10 ^ p)
  (if q < 0 then ['-'] else []) ++ showNat (n / 10 ^ p) ++ (if p = 0 then [] else '.' :: lastDigits p n)

variable {α : Type}

end Print

open Print

variable {α : Type}

/-- `SparseMatrix<T>::Print(label, out)` (include/sparsematrix.hpp:525-542). -/
def Csr.print (F : Show α) (A : Csr α) (label : Text) (out : OStream) : Res OStream := do
  let out := (out.put label).put "\n".toList
  let out ← forUp 0 A.rows out (fun i out =>
    A.forRow i out (fun j out => do
      let c ← rd A.indices j
      let d ← rd A.data j
      let out := (((out.put "(".toList).val intShow i).put ", ".toList).val intShow c
      let out := ((out.put ") ".toList).setw 6).val F d
      .ok (out.put "\n".toList)))
  .ok (out.put "\n".toList)

/-- `CooMatrix<T>::Print(label, out)` (include/coomatrix.hpp:672-687). -/
def Coo.print (F : Show α) (C : Coo α) (label : Text) (out : OStream) : OStream :=
  let out := (out.put label).put "\n".toList
  let out := C.entries.foldl (fun out e =>
    ((((((out.put "(".toList).val intShow e.1).put ", ".toList).val intShow e.2.1).put ") ".toList).val F e.2.2).put "\n".toList) out
  out.put "\n".toList

/-- `LilMatrix<T>::Print(label, out)` (include/lilmatrix.hpp:458-479). -/
def Lil.print (F : Show α) (L : Lil α) (label : Text) (out : OStream) : Res OStream := do
  let out := (out.put label).put "\n".toList
  let out ← forUp 0 (L.entries.length : Int) out (fun i out => do
    let list ← rd L.entries i
    .ok (list.foldl (fun out node =>
      ((((((out.put "(".toList).val intShow i).put ", ".toList).val intShow node.1).put ") ".toList).val F node.2).put "\n".toList) out))
  .ok (out.put "\n".toList)

/-- `VectorView<T>::Print(label, out)` (include/vectorview.hpp:367-378); `operator<<` (include/vectorview.hpp:477-484) is this with an empty label. -/
def Vec.print (F : Show α) (x : List α) (label : Text) (out : OStream) : Res OStream := do
  let out := (out.put label).put "\n".toList
  let out ← forUp 0 (x.length : Int) out (fun i out => do
    let v ← rd x i
    .ok ((out.val F v).put "\n".toList))
  .ok (out.put "\n".toList)

/-- `operator<<(out, const std::vector<T>&)` (include/vectorview.hpp:757-770). -/
def Print.stdVec (F : Show α) (x : List α) (out : OStream) : OStream :=
  let out := out.put "\n".toList
  let out := x.foldl (fun out v => (out.val F v).put "\n".toList) out
  out.put "\n".toList

/-- The text that `DenseMatrix::Print` makes before it writes any of it (src/densematrix.cpp:118-133). -/
def Dense.printText (F : Show α) (D : Dense α) (label : Text) (width precision : Int) : Res Text := do
  let ss := (OStream.new.put label).put "\n".toList
  let ss ← forUp 0 D.rows ss (fun i ss => do
    let ss ← forUp 0 D.cols ss (fun j ss => do
      let v ← D.get i j
      .ok ((((ss.setw width).setprecision precision).fixed).val F v))
    .ok (ss.put "\n".toList))
  .ok (ss.put "\n".toList).text

/-- `DenseMatrix::Print(label, out, width, precision)` (src/densematrix.cpp:116-136). -/
def Dense.print (F : Show α) (D : Dense α) (label : Text) (out : OStream) (width : Int := 8) (precision : Int := 4) : Res OStream := do
  let ss ← D.printText F label width precision
  .ok (out.put ss)

/-- `SparseMatrix<T>::PrintDense(label, out)` (include/sparsematrix.hpp:544-550). -/
def Csr.printDense [Zero α] (F : Show α) (A : Csr α) (label : Text) (out : OStream) : Res OStream := do
  let dense ← A.toDense
  dense.print F label out

/-- `BlockMatrix<T>::Print(label, out)` (include/blockmatrix.hpp:290-310). -/
def BlockMat.print (F : Show α) (B : BlockMat α) (label : Text) (out : OStream) : Res OStream := do
  let out := (out.put label).put "\n".toList
  forUp 0 ((B.rowOff.length : Int) - 1) out (fun i out =>
    forUp 0 ((B.colOff.length : Int) - 1) out (fun j out => do
      let row ← rd B.blocks i
      let mat ← rd row j
      let l := ((((OStream.new.put "block (".toList).val intShow i).put ",".toList).val intShow j).put ")".toList
      mat.print F l.text out))

/-- `BlockMatrix<T>::PrintDense(label, out)` (include/blockmatrix.hpp:312-316). -/
def BlockMat.printDense [Zero α] (F : Show α) (B : BlockMat α) (label : Text) (out : OStream) : Res OStream := do
  let A ← B.combine
  A.printDense F label out

/-- `ParMatrix::Print(label, out)` (modules/parlinalgcpp/src/parmatrix.cpp:326-335). -/
def ParMat.print (F : Show α) (M : ParMat α) (label : Text) (out : OStream) : Res OStream := do
  let out := (out.put label).put "\n".toList
  let out ← M.diag.print F "Diag:".toList out
  let out ← M.offd.print F "Offd:".toList out
  .ok (Print.stdVec intShow M.colMap (out.put "ColMap:".toList))

/-! ## ArgParser -/

namespace Util

/-- `a < b` for `std::string`. -/
def textLt : Text → Text → Bool
  | [], [] => false
  | [], _ :: _ => true
  | _ :: _, [] => false
  | a :: s, b :: t => if a.toNat < b.toNat then true else if b.toNat < a.toNat then false else textLt s t

/-- A pair in its place among pairs in increasing order of keys. -/
def Map.insert {β : Type} (p : Text × β) : List (Text × β) → List (Text × β)
  | [] => [p]
  | q :: r => if textLt q.1 p.1 then q :: Map.insert p r else p :: q :: r

/-- A loop over a `std::map` meets the pairs in increasing order of keys. -/
def Map.inOrder {β : Type} (m : Map β) : List (Text × β) := m.foldr Map.insert []

/-- `ShowErrors(out)` (src/argparser.cpp:67-80). -/
def Args.showErrors (P : Args) (out : OStream) : OStream :=
  let out := if P.errors.length ≠ 0 then out.put "Parse Errors:\n".toList else out
  P.errors.foldl (fun out err => ((out.put "  ".toList).put err).put "\n".toList) out

/-- `ShowHelp(out)` (src/argparser.cpp:82-92). -/
def Args.showHelp (P : Args) (out : OStream) : OStream :=
  let out := out.put "Program Help:\n".toList
  P.help.inOrder.foldl (fun out option =>
    ((((out.put "  ".toList).put option.1).put " ".toList).put option.2).put "\n".toList) out

/-- `ShowOptions(out)` (src/argparser.cpp:94-120); `help_[...]` stores an empty string for a flag that is not there. -/
def Args.showOptions (P : Args) (out : OStream) : Args × OStream :=
  let out := out.put "Program Options:\n".toList
  let widths := P.seen.inOrder.foldl (fun (w : Nat × Nat) option => (max w.1 option.1.length, max w.2 option.2.length)) (0, 0)
  let flagWidth := widths.1 + 2
  let valWidth := widths.2 + 2
  P.seen.inOrder.foldl (fun (s : Args × OStream) option =>
    let out := ((((s.2.put "  ".toList).left).setw flagWidth).put option.1 |>.setw valWidth).put option.2
    let P := match s.1.help.get option.1 with
      | none => { s.1 with help := s.1.help.set option.1 [] }
      | some _ => s.1
    (P, (out.put ((P.help.get option.1).getD [])).put "\n".toList)) (P, out)

end Util
end Linalg
