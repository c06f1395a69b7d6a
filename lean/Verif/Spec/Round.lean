import Mathlib.Algebra.Order.Archimedean.Real.Basic
import Mathlib.Data.Int.Log
import Mathlib.Algebra.Order.Round
import Mathlib.Algebra.Order.Floor.Ring

/-!
# Rounded arithmetic

The standard model of floating-point arithmetic: every operation gives the exact result, rounded.  Overflow and underflow are left out.
The functions of the model are written over any type with the operations; here they are run on the reals with rounded operations.
-/

namespace Linalg

/-- A rounding of the reals with unit roundoff `u`. -/
structure Rounding where
  rnd : ℝ → ℝ
  u : ℝ
  /-- the error is small against the exact value -/
  close : ∀ x, |rnd x - x| ≤ u * |x|
  /-- the error is small against the rounded value -/
  close' : ∀ x, |rnd x - x| ≤ u * |rnd x|
  idem : ∀ x, rnd (rnd x) = rnd x

namespace Rounding

/-- The rounded operations. -/
@[reducible] def add (r : Rounding) : Add ℝ := ⟨fun a b => r.rnd (a + b)⟩

/-- See `add`. -/
@[reducible] def sub (r : Rounding) : Sub ℝ := ⟨fun a b => r.rnd (a - b)⟩

/-- See `add`. -/
@[reducible] def mul (r : Rounding) : Mul ℝ := ⟨fun a b => r.rnd (a * b)⟩

/-- See `add`. -/
@[reducible] noncomputable def div (r : Rounding) : Div ℝ := ⟨fun a b => r.rnd (a / b)⟩

/-- What `n` roundings can do to a factor. -/
def gamma (r : Rounding) (n : Nat) : ℝ := (1 + r.u) ^ n - 1

end Rounding

/-- Rounding to the nearest number with `p` binary digits and any exponent. -/
noncomputable def nearestFn (p : Nat) (x : ℝ) : ℝ :=
  if x = 0 then 0 else (round (x / 2 ^ (Int.log 2 |x| + 1 - p)) : ℝ) * 2 ^ (Int.log 2 |x| + 1 - p)

end Linalg
