import Verif.Spec.Solvers

/-! # What MINRES should compute: the smallest residual over the Krylov space -/

namespace Linalg

variable {K : Type}

/-- `sqrt` is a square root on the non-negative numbers. -/
def IsSqrt [Semiring K] [LE K] (sqrt : K → K) : Prop := ∀ t, 0 ≤ t → 0 ≤ sqrt t ∧ sqrt t * sqrt t = t

/-- The Krylov vectors `a^j r`. -/
def krylovVec [Field K] (n : Int) (a : Int → Int → K) (r : Int → K) : Nat → Int → K
  | 0 => r
  | j + 1 => matVec n a (krylovVec n a r j)

/-- The preconditioned Krylov vectors `(m a)^j m r`. -/
def krylovVecP [Field K] (n : Int) (a m : Int → Int → K) (r : Int → K) : Nat → Int → K
  | 0 => matVec n m r
  | j + 1 => matVec n m (matVec n a (krylovVecP n a m r j))

/-- `x + c 0 * u 0 + ... + c (k - 1) * u (k - 1)`. -/
def comb [Field K] (x : List K) (u : Nat → Int → K) (k : Nat) (c : Nat → K) : Int → K :=
  fun i => vecAt x i + ∑ j ∈ Finset.range k, c j * u j i

/-- The system `a f = b` has a solution. -/
def Consistent [Field K] (n : Int) (a : Int → Int → K) (b : List K) : Prop :=
  ∃ f : Int → K, ∀ i, 0 ≤ i → i < n → matVec n a f i = vecAt b i

/-- The tolerance of the MINRES solvers, from the square of the norm of the first residual. -/
def Minres.tolOf [Field K] [LinearOrder K] (S : Minres K) (d : K) : K :=
  max (S.sqrt d * S.relTol * S.relTol) (S.absTol * S.absTol)

end Linalg
