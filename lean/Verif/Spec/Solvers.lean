import Verif.Spec.Block
import Verif.Spec.Vec
import Verif.Model.Solvers
import Mathlib.Algebra.BigOperators.Group.Finset.Basic
import Mathlib.Order.Interval.Finset.Basic
import Mathlib.Data.Int.Interval
import Mathlib.Algebra.Order.Field.Basic
import Mathlib.Algebra.Module.Pi

/-!
# What the solvers should compute

Vectors are functions on the integers of which the entries `0 .. n - 1` count.
-/

namespace Linalg
open Cpp

variable {K : Type}

/-- The matrix-vector product `a f`. -/
def matVec [NonUnitalNonAssocSemiring K] (n : Int) (a : Int → Int → K) (f : Int → K) : Int → K :=
  fun i => ∑ j ∈ Finset.Ico 0 n, a i j * f j

/-- The inner product of two vectors. -/
def dotFn [NonUnitalNonAssocSemiring K] (n : Int) (f g : Int → K) : K := ∑ i ∈ Finset.Ico 0 n, f i * g i

/-- The vector is zero. -/
def ZeroOn [Zero K] (n : Int) (f : Int → K) : Prop := ∀ i, 0 ≤ i → i < n → f i = 0

/-- The `n × n` matrix is symmetric. -/
def SymmOn (n : Int) (a : Int → Int → K) : Prop := ∀ i j, 0 ≤ i → i < n → 0 ≤ j → j < n → a i j = a j i

/-- The `n × n` matrix is positive definite. -/
def PosDefOn [NonUnitalNonAssocSemiring K] [LT K] (n : Int) (a : Int → Int → K) : Prop :=
  ∀ f, ¬ ZeroOn n f → 0 < dotFn n f (matVec n a f)

/-- The operator is the `n × n` matrix `a`. -/
structure Op.IsMat [NonUnitalNonAssocSemiring K] (op : Op K) (n : Int) (a : Int → Int → K) : Prop where
  rows_eq : op.rows = n
  cols_eq : op.cols = n
  computes : op.Computes (fun x => matVec n a (vecAt x))

/-- The solver's operator is the matrix `a`, its preconditioner, if any, the matrix `m`, its inner product the usual
one. -/
structure Pcg.Ok [Field K] (S : Pcg K) (n : Int) (a m : Int → Int → K) : Prop where
  A_mat : S.A.IsMat n a
  M_mat : ∀ M, S.M = some M → M.IsMat n m
  dot_eq : S.dot = Vec.inner

/-- The action of the preconditioner. -/
def Pcg.prec [Field K] (S : Pcg K) (n : Int) (m : Int → Int → K) (f : Int → K) : Int → K :=
  match S.M with
  | none => f
  | some _ => matVec n m f

/-- The residual `b - a x`. -/
def residFn [Field K] (n : Int) (a : Int → Int → K) (b x : List K) : Int → K :=
  fun i => vecAt b i - matVec n a (vecAt x) i

/-- `Run S tol k s t s'`: `k` passes of the loop of PCG lead from the state `s` to the state `s'`; `t` tells whether the
last of them has left the loop. -/
inductive Pcg.Run [Field K] [LinearOrder K] (S : Pcg K) (tol : K) : Nat → PcgState K → Bool → PcgState K → Prop
  | nil (s) : Run S tol 0 s false s
  | last (s s') : S.step tol s = .ok (true, s') → Run S tol 1 s true s'
  | cons (k s t s' s'') : S.step tol s = .ok (false, s') → Run S tol k s' t s'' → Run S tol (k + 1) s t s''

/-- `a`, and `m` if the solver has a preconditioner, are symmetric and positive definite. -/
structure Pcg.Spd [Field K] [LinearOrder K] (S : Pcg K) (n : Int) (a m : Int → Int → K) : Prop where
  a_symm : SymmOn n a
  a_pos : PosDefOn n a
  m_symm : S.M.isSome → SymmOn n m
  m_pos : S.M.isSome → PosDefOn n m

end Linalg
