import Verif.Model.Print
import Mathlib.Data.Int.Log

/-!
# `double` as text (what `<<` and `>>` do in include/parser.hpp with the values of vectors and matrices)

A finite `double` is a rational number (so zero has no sign).  `<<` without a floating-point notation is `printf("%.*g")` with the precision of the
stream, which is exact in its rounding; `>>` collects what can belong to a number (libstdc++, classic locale) and converts it with `strtod`, which is exact
in its rounding too.  In both a tie goes to the even neighbour.
-/

namespace Linalg
open Cpp Print

namespace Io

/-- A value of type `double`: a number, an infinity or not a number, the last two with a sign. -/
inductive Dbl
  | fin (q : ℚ)
  | inf (neg : Bool)
  | nan (neg : Bool)
  deriving DecidableEq

instance : Zero Dbl := ⟨.fin 0⟩

/-! ## Writing -/

/-- The first `p` significant digits of `q`, as a number, and the decimal exponent of the first of them. -/
def sci (p : Nat) (q : ℚ) : Nat × Int :=
  let k := Int.log 10 q
  let n := roundEven (q / 10 ^ (k - (p - 1)))
  if n = 10 ^ p then (10 ^ (p - 1), k + 1) else (n, k)

/-- `%g` drops zeros at the end of the fraction. -/
def stripZeros (t : Text) : Text := (t.reverse.dropWhile (· == '0')).reverse

/-- `%g` drops the point, too, if no fraction is left. -/
def withFrac (a b : Text) : Text := a ++ (if stripZeros b = [] then [] else '.' :: stripZeros b)

/-- The exponent: a sign and at least two digits. -/
def expText (x : Int) : Text :=
  'e' :: (if x < 0 then '-' else '+') :: (if x.natAbs < 10 then '0' :: showNat x.natAbs else showNat x.natAbs)

/-- `%.{p}g` of a positive number, given its digits and exponent: without an exponent if that is between -4 and `p - 1`. -/
def sciText (p n : Nat) (x : Int) : Text :=
  let ds := lastDigits p n
  if x < -4 ∨ (p : Int) ≤ x then withFrac (ds.take 1) (ds.drop 1) ++ expText x
  else if x < 0 then withFrac ['0'] (List.replicate (-x - 1).toNat '0' ++ ds)
  else withFrac (ds.take (x + 1).toNat) (ds.drop (x + 1).toNat)

/-- `%.{p}g`; a precision of 0 counts as 1. -/
def generalText (p : Nat) (q : ℚ) : Text :=
  let p := if p = 0 then 1 else p
  if q = 0 then ['0']
  else (if q < 0 then ['-'] else []) ++ sciText p (sci p |q|).1 (sci p |q|).2

/-- `out << v`. -/
def showDbl (p : Nat) : Dbl → Text
  | .fin q => generalText p q
  | .inf neg => (if neg then ['-'] else []) ++ "inf".toList
  | .nan neg => (if neg then ['-'] else []) ++ "nan".toList

/-! ## Reading -/

/-- The `double` next to `q`, not negative, if there is no largest one: 53 binary digits, and no digit below the place -1074. -/
def roundBin (q : ℚ) : ℚ :=
  if q = 0 then 0
  else
    let e := max (-1074) (Int.log 2 q - 52)
    roundEven (q / 2 ^ e) * 2 ^ e

/-- An optional sign. -/
def scanSign : Text → Bool × Text
  | [] => (false, [])
  | c :: t => if c = '-' then (true, t) else if c = '+' then (false, t) else (false, c :: t)

/-- What `strtod` returns; too large a number sets the fail bit. -/
def toDouble (neg : Bool) (digits : Nat) (e : Int) : Option ℚ :=
  let v := roundBin (digits * 10 ^ e)
  if 2 ^ 1024 ≤ v then none else some (if neg then -v else v)

/-- After the digits before the point `a` and after it `b`: the exponent. -/
def scanExp (neg : Bool) (a b : Text) : Text → Option ℚ × Text
  | [] => (toDouble neg (digitsVal (a ++ b)) (-b.length), [])
  | c :: t =>
    if c = 'e' ∨ c = 'E' then
      let s := scanSign t
      let x : Int := digitsVal (s.2.takeWhile isDigit)
      if s.2.takeWhile isDigit = [] then (none, s.2)
      else (toDouble neg (digitsVal (a ++ b)) ((if s.1 then -x else x) - b.length), s.2.dropWhile isDigit)
    else (toDouble neg (digitsVal (a ++ b)) (-b.length), c :: t)

/-- After the digits `a` before the point: the fraction. -/
def scanFrac (neg : Bool) (a : Text) : Text → Option ℚ × Text
  | [] => if a = [] then (none, []) else scanExp neg a [] []
  | c :: t =>
    if c = '.' then
      if a = [] ∧ t.takeWhile isDigit = [] then (none, t) else scanExp neg a (t.takeWhile isDigit) (t.dropWhile isDigit)
    else if a = [] then (none, c :: t)
    else scanExp neg a [] (c :: t)

/-- `in >> v`, white space skipped. -/
def scanRat (t : Text) : Option ℚ × Text :=
  let s := scanSign t
  scanFrac s.1 (s.2.takeWhile isDigit) (s.2.dropWhile isDigit)

/-- Finite values. -/
def ratFmt (p : Nat) : Fmt ℚ := ⟨generalText p, scanRat⟩

/-- All values. -/
def dblFmt (p : Nat) : Fmt Dbl := ⟨showDbl p, fun t => ((scanRat t).1.map .fin, (scanRat t).2)⟩

/-! ## The writers, with the precision that each of them sets -/

/-- `WriteText` of a vector of `double` (include/parser.hpp:47-63): precision 16 (57). -/
def writeTextDbl (v : List Dbl) (canOpen : Bool) : Res Text := writeText (dblFmt 16) v canOpen

/-- `ReadText<double>` (include/parser.hpp:21-41). -/
def readTextDbl (file : Option Text) : Res (List Dbl) := readText (dblFmt 16) file

/-- `WriteCSR` of a `SparseMatrix<double>` (include/parser.hpp:528-565): precision 16 (557). -/
def writeCsrDbl (A : Csr Dbl) (canOpen : Bool) : Res Text := writeCsr (dblFmt 16) A canOpen

/-- `ReadCSR<double>` (include/parser.hpp:479-520). -/
def readCsrDbl (file : Option Text) : Res (Csr Dbl) := readCsr (dblFmt 16) file

/-- `WriteMTX` of a `SparseMatrix<double>` (include/parser.hpp:694-727): precision 16 (710). -/
def writeMtxDbl (A : Csr ℚ) (canOpen : Bool) : Res Text := writeMtx (ratFmt 16) A canOpen

/-- `ReadMTX<double>` (include/parser.hpp:577-623); the additions are exact. -/
def readMtxDbl (file : Option Text) : Res (Csr ℚ) := readMtx (ratFmt 16) file

/-- `WriteCooList` (include/parser.hpp:361-391): the precision of a new stream, 6. -/
def writeCooListDbl (A : Csr ℚ) (symmetric canOpen : Bool) : Res Text := writeCooList (ratFmt 6) A symmetric canOpen

/-- `ReadCooList<double>` (include/parser.hpp:322-351); the additions are exact. -/
def readCooListDbl (file : Option Text) (symmetric : Bool) : Res (Csr ℚ) := readCooList (ratFmt 6) file symmetric

end Io
end Linalg
