import Verif.Model.ReleaseDense

/-!
# Rows, columns and blocks of dense matrices with and without NDEBUG

As in `Model/Dense`, with the build as a parameter.  `SetSize` keeps its assertion; the properties assume that the sizes it gets are not negative.
-/

namespace Linalg
namespace Rel
open Cpp

variable {α : Type}

/-- `GetCol(int col, VectorView<T>& vect) const` (include/densematrix.hpp:725-735). -/
def dgetCol (b : Build) (D : Dense α) (col : Int) (vect : List α) : Res (List α) := do
  b.assert (col ≥ 0 ∧ col < D.cols)
  b.assert ((vect.length : Int) = D.rows)
  forUp 0 D.rows vect (fun i vect => do
    let x ← dget b D i col
    vwr b vect i x)

/-- `GetRow(int row, VectorView<T>& vect) const` (include/densematrix.hpp:737-747). -/
def dgetRow (b : Build) (D : Dense α) (row : Int) (vect : List α) : Res (List α) := do
  b.assert (row ≥ 0 ∧ row < D.rows)
  b.assert ((vect.length : Int) = D.cols)
  forUp 0 D.cols vect (fun i vect => do
    let x ← dget b D row i
    vwr b vect i x)

/-- `SetCol(int col, const VectorView<T>& vect)` (include/densematrix.hpp:767-777). -/
def dsetCol (b : Build) (D : Dense α) (col : Int) (vect : List α) : Res (Dense α) := do
  b.assert (col ≥ 0 ∧ col < D.cols)
  b.assert ((vect.length : Int) = D.rows)
  forUp 0 D.rows D (fun i D => do
    let x ← vrd b vect i
    dput b D i col x)

/-- `SetRow(int row, const VectorView<T>& vect)` (include/densematrix.hpp:779-789). -/
def dsetRow (b : Build) (D : Dense α) (row : Int) (vect : List α) : Res (Dense α) := do
  b.assert (row ≥ 0 ∧ row < D.rows)
  b.assert ((vect.length : Int) = D.cols)
  forUp 0 D.cols D (fun i D => do
    let x ← vrd b vect i
    dput b D row i x)

/-- The range assertions of `GetSubMatrix` and `SetSubMatrix` (src/densematrix.cpp:453-457, 509-513). -/
def drange (b : Build) (D : Dense α) (si sj ei ej : Int) : Res Unit := do
  b.assert (si ≥ 0 ∧ si < D.rows)
  b.assert (sj ≥ 0 ∧ sj < D.cols)
  b.assert (ei ≥ 0 ∧ ei ≤ D.rows)
  b.assert (ej ≥ 0 ∧ ej ≤ D.cols)
  b.assert (ei ≥ si ∧ ej ≥ sj)

/-- `GetSubMatrix(start_i, start_j, end_i, end_j, dense)` (src/densematrix.cpp:451-471). -/
def dgetSub [Zero α] (b : Build) (D : Dense α) (si sj ei ej : Int) (dense : Dense α) : Res (Dense α) := do
  drange b D si sj ei ej
  let dense ← dense.setSize (ei - si) (ej - sj)
  forUp 0 (ej - sj) dense (fun j dense =>
    forUp 0 (ei - si) dense (fun i dense => do
      let x ← dget b D (i + si) (j + sj)
      dput b dense i j x))

/-- `SetSubMatrix(start_i, start_j, dense)` (src/densematrix.cpp:502-525). -/
def dsetSub (b : Build) (D : Dense α) (si sj : Int) (dense : Dense α) : Res (Dense α) := do
  drange b D si sj (si + dense.rows) (sj + dense.cols)
  forUp 0 (sj + dense.cols - sj) D (fun j D =>
    forUp 0 (si + dense.rows - si) D (fun i D => do
      let x ← dget b dense i j
      dput b D (i + si) (j + sj) x))

/-- `GetDiag()` (src/densematrix.cpp:721-741). -/
def dgetDiag [Zero α] (b : Build) (D : Dense α) : Res (List α) := do
  b.assert (D.rows = D.cols)
  let diag ← mkVec D.rows (0 : α)
  b.assert (D.rows = D.cols)
  b.assert ((diag.length : Int) = D.rows)
  forUp 0 D.rows diag (fun i diag => do
    let x ← dget b D i i
    wr diag i x)

end Rel
end Linalg
