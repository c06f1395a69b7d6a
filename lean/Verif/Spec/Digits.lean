import Verif.Model.Digits
import Verif.Spec.Io

/-!
# Numbers with a limited number of digits
-/

namespace Linalg
namespace Io

/-- A finite number of type `double`: 53 binary digits, and an exponent in range. -/
def IsDouble (q : ℚ) : Prop := ∃ m e : Int, q = m * 2 ^ e ∧ |m| < 2 ^ 53 ∧ -1074 ≤ e ∧ e ≤ 971

/-- A decimal number with at most `p` significant digits. -/
def IsDec (p : Nat) (q : ℚ) : Prop := ∃ m e : Int, q = m * 10 ^ e ∧ |m| < 10 ^ p

/-- `d` is in `S`, and nothing in `S` is nearer to `q`. -/
def Nearest (S : ℚ → Prop) (q d : ℚ) : Prop := S d ∧ ∀ d', S d' → |q - d| ≤ |q - d'|

/-- `y` is what becomes of `x` when it is rounded to `p` decimal digits and then to a `double`. -/
def Rounded (p : Nat) (x y : ℚ) : Prop := ∃ d, Nearest (IsDec p) x d ∧ Nearest IsDouble d y

/-- A power of ten, with either sign. -/
def IsTenPow (q : ℚ) : Prop := ∃ k : Int, |q| = 10 ^ k

/-- What is printed for `v` has a character, does not start with white space, and converts to `w`. -/
structure Fmt.Reads {α : Type} (F : Fmt α) (v w : α) : Prop where
  first : ∃ c r, F.put v = c :: r ∧ isSpace c = false
  back : ∀ r, Ends r → F.get (F.put v ++ r) = (some w, r)

end Io
end Linalg
