import Verif.Model.Sparse
import Verif.Spec.Dense
import Mathlib.Algebra.BigOperators.Group.Finset.Basic
import Mathlib.Order.Interval.Finset.Basic
import Mathlib.Data.Int.Interval
import Mathlib.Algebra.Ring.Defs

/-!
# What a CSR matrix means

Independent of the algorithms: well-formedness, the stored entries of a row, and the coefficient a matrix
represents at a position.
-/

namespace Linalg
open Cpp

/-- Well-formed CSR arrays: the row pointers start at 0, never decrease and end at the number of stored
entries; there is a column index for each value and it is a valid column. -/
structure Csr.WF {α : Type} (A : Csr α) : Prop where
  rows_nonneg : 0 ≤ A.rows
  cols_nonneg : 0 ≤ A.cols
  indptr_len : (A.indptr.length : Int) = A.rows + 1
  indptr_first : A.indptr.head? = some 0
  indptr_mono : A.indptr.Pairwise (· ≤ ·)
  indptr_last : A.indptr.getLast? = some (A.data.length : Int)
  indices_len : A.indices.length = A.data.length
  cols_ok : ∀ c ∈ A.indices, 0 ≤ c ∧ c < A.cols

/-- Well-formedness can be checked on concrete matrices. -/
instance {α : Type} (A : Csr α) : Decidable A.WF :=
  decidable_of_iff
    (0 ≤ A.rows ∧ 0 ≤ A.cols ∧ (A.indptr.length : Int) = A.rows + 1 ∧ A.indptr.head? = some 0 ∧
      A.indptr.Pairwise (· ≤ ·) ∧ A.indptr.getLast? = some (A.data.length : Int) ∧
      A.indices.length = A.data.length ∧ ∀ c ∈ A.indices, 0 ≤ c ∧ c < A.cols)
    ⟨fun ⟨a, b, c, d, e, f, g, h⟩ => ⟨a, b, c, d, e, f, g, h⟩,
     fun ⟨a, b, c, d, e, f, g, h⟩ => ⟨a, b, c, d, e, f, g, h⟩⟩

/-- The stored entries of row `i`, as (column, value) pairs in storage order; no entries for an `i` that is
not a row. -/
def Csr.row {α : Type} (A : Csr α) (i : Int) : List (Int × α) :=
  match rd A.indptr i, rd A.indptr (i + 1) with
  | .ok a, .ok b => ((A.indices.zip A.data).drop a.toNat).take (b - a).toNat
  | _, _ => []

/-- The coefficient at `(i, j)`: the sum of all values stored in row `i` with column `j`. -/
def Csr.coef {R : Type} [AddMonoid R] (A : Csr R) (i j : Int) : R :=
  (((A.row i).filter (fun e => e.1 = j)).map Prod.snd).sum

/-- No row stores the same column twice. -/
def Csr.NoDup {α : Type} (A : Csr α) : Prop :=
  ∀ i, ((A.row i).map Prod.fst).Nodup

/-- The stored entries in column `j`, as (row, value) pairs, in row order (and storage order within a row). -/
def Csr.column {α : Type} (A : Csr α) (j : Int) : List (Int × α) :=
  (iota A.rows.toNat).flatMap (fun i =>
    ((A.row i).filter (fun e => e.1 = j)).map (fun e => (i, e.2)))

/-- Element `j` of a vector (0 outside; only used inside the range). -/
def vecAt {R : Type} [Zero R] (x : List R) (j : Int) : R :=
  if 0 ≤ j then x.getD j.toNat 0 else 0

/-- `A x`, mathematically. -/
def Csr.mulVec {R : Type} [NonUnitalNonAssocSemiring R] (A : Csr R) (x : List R) (i : Int) : R :=
  ∑ j ∈ Finset.Ico 0 A.cols, A.coef i j * vecAt x j

/-- `Aᵀ x`, mathematically. -/
def Csr.tMulVec {R : Type} [NonUnitalNonAssocSemiring R] (A : Csr R) (x : List R) (j : Int) : R :=
  ∑ i ∈ Finset.Ico 0 A.rows, A.coef i j * vecAt x i

/-- `B` is `A` with the same shape and the same stored positions, in which every stored value `v` at row `i`,
column `j` has become `G i j v`. -/
structure Csr.UpdatedBy {α β : Type} (A : Csr α) (B : Csr β) (G : Int → Int → α → β) : Prop where
  rows_eq : B.rows = A.rows
  cols_eq : B.cols = A.cols
  indptr_eq : B.indptr = A.indptr
  indices_eq : B.indices = A.indices
  row_eq : ∀ i, B.row i = (A.row i).map (fun e => (e.1, G i e.1 e.2))

/-- `perm` is a permutation of `0..n-1`. -/
def IsPerm (n : Int) (perm : List Int) : Prop :=
  (perm.length : Int) = n ∧ (∀ c ∈ perm, 0 ≤ c ∧ c < n) ∧ perm.Nodup

end Linalg
