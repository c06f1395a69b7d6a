import Verif.Spec.Solvers

/-!
# What power iteration should compute
-/

namespace Linalg

variable {K : Type}

/-- The `k`-th power of the matrix times the vector. -/
def matPow [NonUnitalNonAssocSemiring K] (n : Int) (a : Int → Int → K) : Nat → (Int → K) → (Int → K)
  | 0, f => f
  | k + 1, f => matVec n a (matPow n a k f)

/-- The Rayleigh quotient of the vector. -/
def rayleigh [Field K] (n : Int) (a : Int → Int → K) (f : Int → K) : K := dotFn n f (matVec n a f) / dotFn n f f

/-- Quotient `k` differs from the one before it (or from 0) by less than `tol` of its size. -/
def PowerStops [Field K] [LinearOrder K] (n : Int) (a : Int → Int → K) (f : Int → K) (tol : K) : Nat → Prop
  | 0 => rayleigh n a f ≠ 0 ∧ 1 < tol
  | k + 1 => rayleigh n a (matPow n a (k + 1) f) ≠ 0 ∧
      |rayleigh n a (matPow n a (k + 1) f) - rayleigh n a (matPow n a k f)| < tol * |rayleigh n a (matPow n a (k + 1) f)|

/-- The quadratic form of the matrix is never negative. -/
def PosSemiOn [NonUnitalNonAssocSemiring K] [LE K] (n : Int) (a : Int → Int → K) : Prop :=
  ∀ f, 0 ≤ dotFn n f (matVec n a f)

end Linalg
