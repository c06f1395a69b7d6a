import Verif.Model.Mixed
import Verif.Spec.Csr
import Verif.Spec.Coo

/-! # Products of operands of different types -/

namespace Linalg
open Cpp

variable {T U V : Type}

/-- The same matrix with other values. -/
def Csr.withData {α β : Type} (A : Csr α) (f : α → β) : Csr β := ⟨A.rows, A.cols, A.indptr, A.indices, A.data.map f⟩

/-- The factors of the products that make up element `i` of `A x`, in storage order. -/
def Csr.rowFactors [Zero U] (A : Csr T) (x : List U) (i : Int) : List (T × U) := (A.row i).map (fun e => (e.2, vecAt x e.1))

/-- The factors of the products that make up element `j` of `Aᵀ x`, from the top row down. -/
def Csr.colFactors [Zero U] (A : Csr T) (x : List U) (j : Int) : List (T × U) := (A.column j).map (fun e => (e.2, vecAt x e.1))

/-- The factors of the products that meet at `(i, j)` in the product of two sparse matrices. -/
def Csr.meetFactors (A : Csr T) (B : Csr U) (i j : Int) : List (T × U) :=
  (A.row i).flatMap (fun a => ((B.row a.1).filter (fun b => b.1 = j)).map (fun b => (a.2, b.2)))

/-- Products added one by one to zero. -/
def Mix.sumUp [Zero V] (m : Mix T U V) (l : List (T × U)) : V := l.foldl (fun s e => m.acc s e.1 e.2) 0

/-- The first product stored, the others added one by one. -/
def Mix.sumOn [Zero V] (m : Mix T U V) : List (T × U) → V
  | [] => 0
  | e :: l => l.foldl (fun s e => m.acc s e.1 e.2) (m.set e.1 e.2)

/-- The sum of the products as numbers. -/
def exactSum (φ : T → ℚ) (ψ : U → ℚ) (l : List (T × U)) : ℚ := (l.map (fun e => φ e.1 * ψ e.2)).sum

/-- The coordinate matrix with its values converted. -/
def Coo.withData (C : Coo T) (f : T → U) : Coo U := ⟨C.rows, C.cols, C.sizeSet, C.entries.map (fun e => (e.1, e.2.1, f e.2.2))⟩

/-- The values listed for column `j` in a row of a list-of-lists matrix. -/
def valuesAt (row : List (Int × T)) (j : Int) : List T := (row.filter (fun e => e.1 = j)).map Prod.snd

end Linalg
