import Verif.Spec.Csr

/-!
# What a graph Laplacian is
-/

namespace Linalg

variable {R : Type}

/-- Position `(i, j)` is stored. -/
def Csr.Stored (A : Csr R) (i j : Int) : Prop := j ∈ (A.row i).map Prod.fst

instance (A : Csr R) (i j : Int) : Decidable (A.Stored i j) := inferInstanceAs (Decidable (_ ∈ _))

/-- The number of stored entries of row `i` that are not on the diagonal. -/
def Csr.degree (A : Csr R) (i : Int) : Nat := ((A.row i).filter (fun e => e.1 ≠ i)).length

/-- `L` is the Laplacian of the graph whose edges are the stored positions of `A` off the diagonal. -/
structure Csr.IsLaplacian [Ring R] (A : Csr R) (L : Int → Int → R) : Prop where
  diag : ∀ i, 0 ≤ i → i < A.rows → L i i = A.degree i
  edge : ∀ i j, 0 ≤ i → i < A.rows → i ≠ j → A.Stored i j → L i j = -1
  none : ∀ i j, 0 ≤ i → i < A.rows → i ≠ j → ¬ A.Stored i j → L i j = 0

end Linalg
