import Verif.Model.Dense
import Mathlib.Algebra.BigOperators.Group.Finset.Basic
import Mathlib.Order.Interval.Finset.Basic
import Mathlib.Data.Int.Interval

/-!
# What a dense matrix means
-/

namespace Linalg
open Cpp

/-- A dense matrix whose buffer has the right size. -/
structure Dense.WF {α : Type} (D : Dense α) : Prop where
  rows_nonneg : 0 ≤ D.rows
  cols_nonneg : 0 ≤ D.cols
  size : (D.data.length : Int) = D.rows * D.cols

/-- Can be checked on concrete matrices. -/
instance {α : Type} (D : Dense α) : Decidable D.WF :=
  decidable_of_iff (0 ≤ D.rows ∧ 0 ≤ D.cols ∧ (D.data.length : Int) = D.rows * D.cols)
    ⟨fun ⟨a, b, c⟩ => ⟨a, b, c⟩, fun ⟨a, b, c⟩ => ⟨a, b, c⟩⟩

/-- `D` is a well-formed `m x n` matrix and reading `D(i, j)` returns `f i j` for every position in range. -/
structure Dense.Is {α : Type} (D : Dense α) (m n : Int) (f : Int → Int → α) : Prop where
  wf : D.WF
  rows_eq : D.rows = m
  cols_eq : D.cols = n
  get_eq : ∀ i j, 0 ≤ i → i < m → 0 ≤ j → j < n → D.get i j = .ok (f i j)

/-- What reading `D(i, j)` returns (0 for a position out of range). -/
def Dense.entry {α : Type} [Zero α] (D : Dense α) (i j : Int) : α :=
  match D.get i j with
  | .ok x => x
  | .error _ => 0

end Linalg
