import Mathlib.Data.Int.Init
import Mathlib.Tactic.Linarith

/-! # Where a value comes from when places are overwritten in order -/

namespace Linalg

/-- Place `i` is overwritten with the value at place `r i`, for `i = 0, 1, ...` in order.  The place where the value that ends up at `i` was
in the beginning: `r i` if that place is overwritten later (or now), otherwise where the value that replaced it came from. -/
def chase (r : Int → Int) (i : Nat) : Int :=
  if _h : 0 ≤ r i ∧ r i < i then chase r (r i).toNat else r i
termination_by i
decreasing_by omega

/-- The part with rows `si .. ei - 1` and columns `sj .. ej - 1` is overwritten, in order, with what stands `si` rows above and `sj` columns
to the left.  The place where the value that ends up at `(i, j)` was in the beginning. -/
def shiftBack (si sj ei ej : Nat) (i j : Nat) : Nat × Nat :=
  if _h : (0 < si ∨ 0 < sj) ∧ si ≤ i ∧ i < ei ∧ sj ≤ j ∧ j < ej then shiftBack si sj ei ej (i - si) (j - sj) else (i, j)
termination_by i + j
decreasing_by omega

end Linalg
