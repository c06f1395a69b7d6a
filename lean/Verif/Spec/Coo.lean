import Verif.Model.Coo
import Verif.Model.Lil
import Verif.Spec.Csr

/-!
# What coordinate and list-of-lists matrices mean
-/

namespace Linalg
open Cpp

/-- The sum of the values listed at `(i, j)`. -/
def tripleCoef {R : Type} [AddMonoid R] (l : List (Int × Int × R)) (i j : Int) : R :=
  ((l.filter (fun e => e.1 = i ∧ e.2.1 = j)).map (fun e => e.2.2)).sum

/-- The coefficient a `CooMatrix` represents at `(i, j)`. -/
def Coo.coef {R : Type} [AddMonoid R] (C : Coo R) (i j : Int) : R := tripleCoef C.entries i j

/-- Every entry has non-negative indices, inside the size if one was given. -/
structure Coo.WF {α : Type} (C : Coo α) : Prop where
  rows_nonneg : 0 ≤ C.rows
  cols_nonneg : 0 ≤ C.cols
  entry_nonneg : ∀ e ∈ C.entries, 0 ≤ e.1 ∧ 0 ≤ e.2.1
  entry_lt : C.sizeSet = true → ∀ e ∈ C.entries, e.1 < C.rows ∧ e.2.1 < C.cols

/-- Well-formedness can be checked on concrete matrices. -/
instance {α : Type} (C : Coo α) : Decidable C.WF :=
  decidable_of_iff
    (0 ≤ C.rows ∧ 0 ≤ C.cols ∧ (∀ e ∈ C.entries, 0 ≤ e.1 ∧ 0 ≤ e.2.1) ∧
      (C.sizeSet = true → ∀ e ∈ C.entries, e.1 < C.rows ∧ e.2.1 < C.cols))
    ⟨fun ⟨a, b, c, d⟩ => ⟨a, b, c, d⟩, fun ⟨a, b, c, d⟩ => ⟨a, b, c, d⟩⟩

/-- A sequence of `Add` calls. -/
def Coo.addAll {α : Type} (C : Coo α) (l : List (Int × Int × α)) : Res (Coo α) :=
  l.foldlM (fun C e => C.add e.1 e.2.1 e.2.2) C

/-- The coefficient a `LilMatrix` represents at `(i, j)`. -/
def Lil.coef {R : Type} [AddMonoid R] (L : Lil R) (i j : Int) : R :=
  match rd L.entries i with
  | .ok row => ((row.filter (fun e => e.1 = j)).map Prod.snd).sum
  | .error _ => 0

/-- A sized `LilMatrix` with a list for each row and only valid columns. -/
structure Lil.WF {α : Type} (L : Lil α) : Prop where
  sized : L.sizeSet = true
  rows_len : (L.entries.length : Int) = L.rows
  cols_nonneg : 0 ≤ L.cols
  cols_ok : ∀ r ∈ L.entries, ∀ e ∈ r, 0 ≤ e.1 ∧ e.1 < L.cols

/-- Well-formedness can be checked on concrete matrices. -/
instance {α : Type} (L : Lil α) : Decidable L.WF :=
  decidable_of_iff
    (L.sizeSet = true ∧ (L.entries.length : Int) = L.rows ∧ 0 ≤ L.cols ∧
      ∀ r ∈ L.entries, ∀ e ∈ r, 0 ≤ e.1 ∧ e.1 < L.cols)
    ⟨fun ⟨a, b, c, d⟩ => ⟨a, b, c, d⟩, fun ⟨a, b, c, d⟩ => ⟨a, b, c, d⟩⟩

/-- A sequence of `Add` calls. -/
def Lil.addAll {α : Type} (L : Lil α) (l : List (Int × Int × α)) : Res (Lil α) :=
  l.foldlM (fun L e => L.add e.1 e.2.1 e.2.2) L

/-- What is used of `std::list::sort` on a row: the same nodes, with non-decreasing columns (`operator<` on
pairs compares the columns first). -/
def IsRowSort {α : Type} (sort : List (Int × α) → List (Int × α)) : Prop :=
  ∀ l, (sort l).Perm l ∧ (sort l).Pairwise (fun a b => a.1 ≤ b.1)

end Linalg
