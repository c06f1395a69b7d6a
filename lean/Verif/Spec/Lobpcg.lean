import Verif.Spec.ParVec
import Verif.Model.Lobpcg

/-!
# What hypre's LOBPCG computes with a given operator and preconditioner
-/

namespace Linalg
open Cpp

variable {α : Type}

/-- The program run with `A` for the matrix and `T` for the preconditioner, which may use what is in the vector it overwrites. -/
def Ask.eval (A : List (List α) → List (List α)) (T : List (List α) → List (List α) → List (List α)) : Ask α → List (List α) × List (List (List α))
  | .done evals vecs => (evals, vecs)
  | .matvec _ x _ _ k => (k (A x)).eval A T
  | .precond b x k => (k (T b x)).eval A T

/-- What hypre promises of its run: it asks for `y = 1 A x + 0 y` only, all its vectors are distributed like the given ones, it asks for the preconditioner only
if there is one, and in the end it has on every one of `np` processes `n` eigenvalues and `n` vectors. -/
inductive Ask.Proper [Zero α] [One α] (A : List (List α) → List (List α)) (T : List (List α) → List (List α) → List (List α)) (o : List Int) (pre : Bool)
    (np n : Nat) : Ask α → Prop
  | done {evals vecs} (he : evals.length = np) (he' : ∀ e ∈ evals, e.length = n) (hv : vecs.length = np) (hv' : ∀ v ∈ vecs, v.length = n)
      (hs : ∀ i < n, Par.IsShares (vecs.map (fun v => v.getD i [])) o) : Ask.Proper A T o pre np n (.done evals vecs)
  | matvec {x y k} (hx : Par.IsShares x o) (hy : Par.IsShares y o) (h : Ask.Proper A T o pre np n (k (A x))) :
      Ask.Proper A T o pre np n (.matvec 1 x 0 y k)
  | precond {b x k} (hp : pre = true) (hb : Par.IsShares b o) (hx : Par.IsShares x o) (h : Ask.Proper A T o pre np n (k (T b x))) :
      Ask.Proper A T o pre np n (.precond b x k)

/-- An operator that does to distributed vectors what `A` does. -/
def ParOp.Acts (op : ParOp α) (o : List Int) (A : List (List α) → List (List α) → List (List α)) : Prop :=
  ∀ x y, Par.IsShares x o → Par.IsShares y o → op.mult x y = .ok (A x y) ∧ Par.IsShares (A x y) o

/-- The operator lives on processes that have as many rows each as `o` says. -/
structure ParOp.On (op : ParOp α) (o : List Int) : Prop where
  len : o.length = op.rows.length + 1
  first : vecAt o 0 = 0
  rows : ∀ (p : Nat) (h : p < op.rows.length), op.rows[p] = vecAt o (p + 1) - vecAt o p
  starts_len : op.starts.length = op.rows.length
  starts : ∀ (p : Nat) (h : p < op.starts.length), op.starts[p][0]? = some (vecAt o p) ∧ op.starts[p][1]? = some (vecAt o (p + 1))

/-- Vectors for `LOBPCG`: on every process the same number, each as long as the process has rows. -/
structure Par.StartVecs (x : List (List (List α))) (o : List Int) (n : Nat) : Prop where
  len : o.length = x.length + 1
  num : ∀ v ∈ x, v.length = n
  size : ∀ (p : Nat) (h : p < x.length), ∀ v ∈ x[p], (v.length : Int) = vecAt o (p + 1) - vecAt o p

end Linalg
