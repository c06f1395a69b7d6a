import Verif.Spec.ParComm
import Verif.Spec.Vec
import Verif.Model.ParVec

/-!
# What a distributed vector means
-/

namespace Linalg
open Cpp

variable {R : Type}

/-- A vector distributed over processes: process `p` owns the elements from `o[p]` to `o[p + 1]`. -/
structure Par.IsShares (xs : List (List R)) (o : List Int) : Prop where
  len : o.length = xs.length + 1
  first : vecAt o 0 = 0
  share : ∀ (p : Nat) (h : p < xs.length), (xs[p].length : Int) = vecAt o (p + 1) - vecAt o p

/-- Element `g` of the whole vector: the shares one after another. -/
def Par.globalVec [Zero R] (xs : List (List R)) (g : Int) : R := vecAt xs.flatten g

/-- The contract of `hypre_ParCSRMatrixMatvec(1.0, A, x, 0.0, b)`: the matrix times the vector, distributed like the rows. -/
def Par.IsMatvec [NonUnitalNonAssocSemiring R] (mv : Par.Matvec R) : Prop :=
  ∀ (Ms : List (ParMat R)) (ro co : List Int), Par.IsDist Ms ro co → ∀ xs, xs.length = Ms.length → Par.IsShares xs co →
    (mv Ms xs).length = Ms.length ∧ Par.IsShares (mv Ms xs) ro ∧
      ∀ g, 0 ≤ g → g < vecAt ro Ms.length →
        Par.globalVec (mv Ms xs) g = ∑ c ∈ Finset.Ico (0 : Int) (vecAt co Ms.length), Par.globalCoef Ms g c * Par.globalVec xs c

/-- The contract of `hypre_ParCSRMatrixMatvecT(1.0, A, b, 0.0, x)`: the transposed matrix times the vector, distributed like the
columns. -/
def Par.IsMatvecT [NonUnitalNonAssocSemiring R] (mvT : Par.Matvec R) : Prop :=
  ∀ (Ms : List (ParMat R)) (ro co : List Int), Par.IsDist Ms ro co → ∀ xs, xs.length = Ms.length → Par.IsShares xs ro →
    (mvT Ms xs).length = Ms.length ∧ Par.IsShares (mvT Ms xs) co ∧
      ∀ c, 0 ≤ c → c < vecAt co Ms.length →
        Par.globalVec (mvT Ms xs) c = ∑ g ∈ Finset.Ico (0 : Int) (vecAt ro Ms.length), Par.globalCoef Ms g c * Par.globalVec xs g

/-- The shares of a distributed vector as `ParVector`s: each knows its own range and the total. -/
structure Par.IsVecs (vs : List (ParVec R)) (o : List Int) : Prop where
  shares : Par.IsShares (vs.map ParVec.data) o
  part : ∀ (p : Nat) (h : p < vs.length), vs[p].part = [vecAt o p, vecAt o (p + 1), vecAt o vs.length]
  total : ∀ (p : Nat) (h : p < vs.length), vs[p].globalSize = vecAt o vs.length

end Linalg
