import Verif.Spec.Solvers
import Verif.Spec.Lobpcg
import Mathlib.Logic.Relation

/-!
# Eigenvalues of a matrix, and matrices like those of graphs
-/

namespace Linalg

variable {K : Type}

/-- `x` is an eigenvector of the `n × n` matrix `m` for the eigenvalue `l`. -/
structure EigenOn [NonUnitalNonAssocSemiring K] (n : Int) (m : Int → Int → K) (x : Int → K) (l : K) : Prop where
  eq : ∀ g, 0 ≤ g → g < n → ∑ c ∈ Finset.Ico (0 : Int) n, m g c * x c = l * x g
  ne : ∃ g, 0 ≤ g ∧ g < n ∧ x g ≠ 0

/-- `x` is a combination of the first `k` of the vectors `u`. -/
def CombOn [NonUnitalNonAssocSemiring K] (n : Int) (u : Nat → Int → K) (k : Nat) (x : Int → K) : Prop :=
  ∃ c : Nat → K, ∀ g, 0 ≤ g → g < n → x g = ∑ j ∈ Finset.range k, c j * u j g

/-- `e` are the lowest eigenvalues of the `n × n` matrix `m`, each as often as there are independent eigenvectors: there are eigenvectors for them,
none a combination of those before, and every other eigenvector has no lower eigenvalue. -/
def LowestOn [NonUnitalNonAssocSemiring K] [LE K] (n : Int) (m : Int → Int → K) (e : List K) : Prop :=
  ∃ u : Nat → Int → K, (∀ (k : Nat) (h : k < e.length), EigenOn n m (u k) e[k]) ∧ (∀ k < e.length, ¬ CombOn n u k (u k)) ∧
    ∀ (k : Nat) (h : k < e.length) (x : Int → K) (l : K), EigenOn n m x l → ¬ CombOn n u k x → e[k] ≤ l

/-- A symmetric matrix whose rows add up to zero, with no positive entry off the diagonal. -/
structure LaplaceOn [AddCommMonoid K] [LE K] (n : Int) (a : Int → Int → K) : Prop where
  symm : SymmOn n a
  sum : ∀ i, 0 ≤ i → i < n → ∑ j ∈ Finset.Ico (0 : Int) n, a i j = 0
  off : ∀ i j, 0 ≤ i → i < n → 0 ≤ j → j < n → i ≠ j → a i j ≤ 0

/-- One can get from every index to every other by steps whose entry is not zero. -/
def ConnectedOn [Zero K] (n : Int) (a : Int → Int → K) : Prop :=
  ∀ i j, 0 ≤ i → i < n → 0 ≤ j → j < n → Relation.ReflTransGen (fun s t => (0 ≤ s ∧ s < n) ∧ (0 ≤ t ∧ t < n) ∧ a s t ≠ 0) i j

/-- What is expected of hypre's LOBPCG and a preconditioner `P`: `P` can be applied, and with it the program does what it promises (`Ask.Proper`)
and finds the numbers `e` up to `d`, from whatever vectors it starts. -/
def Par.FindsLowest [NonAssocRing K] [LinearOrder K] (hypre : Bool → List (List (List K)) → Ask K) (Ms : List (ParMat K)) (o : List Int)
    (e : List K) (d : K) (P : ParOp K) : Prop :=
  ∃ T, P.Acts o T ∧ ∀ A : List (List K) → List (List K), (∀ v, Par.IsShares v o → Par.IsShares (A v) o ∧ ∀ g, 0 ≤ g → g < vecAt o Ms.length →
      Par.globalVec (A v) g = ∑ c ∈ Finset.Ico (0 : Int) (vecAt o Ms.length), Par.globalCoef Ms g c * Par.globalVec v c) →
    ∀ x, Par.StartVecs x o e.length → (hypre true x).Proper A T o true x.length e.length ∧
      ∀ ev ∈ ((hypre true x).eval A T).1, ∀ (k : Nat) (h : k < e.length), |vecAt ev k - e[k]| < d

end Linalg
