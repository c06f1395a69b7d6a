import Verif.Spec.Solvers
import Mathlib.Data.Nat.Cast.Defs

/-!
# The matrix of a ring in which everybody is joined with the next `k` on either side
-/

namespace Linalg

variable {R : Type}

/-- `j` can be reached from `i` in at most `k` steps around a ring of `n`, in one direction or the other. -/
def Near (n k i j : Int) : Prop := (j - i) % n ≤ k ∨ (i - j) % n ≤ k

instance (n k i j : Int) : Decidable (Near n k i j) := inferInstanceAs (Decidable (_ ∨ _))

/-- The number of neighbours on the diagonal, `-1` for each neighbour. -/
def ringCoef [NatCast R] [Zero R] [One R] [Neg R] (n k : Nat) (i j : Int) : R :=
  if i = j then ((2 * k : Nat) : R) else if Near n k i j then -1 else 0

/-- Row and column `r` replaced by those of the identity. -/
def eliminated [Zero R] [One R] (a : Int → Int → R) (r i j : Int) : R :=
  if i = r ∨ j = r then (if i = j then 1 else 0) else a i j

end Linalg
