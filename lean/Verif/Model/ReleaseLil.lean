import Verif.Model.ReleaseSparse
import Verif.Model.Lil

/-!
# LilMatrix with and without NDEBUG

As in `Model/Lil`, with the build as a parameter.  Without assertions a negative row reaches `entries_.resize(i + 1)`, whose argument becomes a `size_t`:
a negative one is larger than `max_size()` and throws.
-/

namespace Linalg
namespace Rel
open Cpp

variable {α : Type}

/-- `Add(int i, int j, T val)` (include/lilmatrix.hpp:258-276); `static_cast<size_t>(i)` of a negative row exceeds every size. -/
def lilAdd (b : Build) (L : Lil α) (i j : Int) (val : α) : Res (Lil α) := do
  b.assert (i ≥ 0)
  b.assert (j ≥ 0)
  let es ← (if L.sizeSet then do
      b.assert (i < L.rows)
      b.assert (j < L.cols)
      .ok L.entries
    else if i < 0 ∨ i ≥ L.entries.length then
      if i + 1 < 0 then .error .threw else .ok (resize L.entries (i + 1).toNat [])
    else .ok L.entries : Res (List (List (Int × α))))
  let row ← rd es i
  let es ← wr es i ((j, val) :: row)
  .ok { L with entries := es }

/-- `AddSym(int i, int j, T val)` (include/lilmatrix.hpp:278-287). -/
def lilAddSym (b : Build) (L : Lil α) (i j : Int) (val : α) : Res (Lil α) := do
  let L ← lilAdd b L i j val
  if i ≠ j then lilAdd b L j i val else .ok L

/-- `ToSparse()` (include/lilmatrix.hpp:352-408); `SparseMatrix(rows, cols)` is include/sparsematrix.hpp:458-464. -/
def lilToSparse [Add α] (b : Build) (sort : List (Int × α) → List (Int × α)) (L : Lil α) : Res (Csr α × Lil α) := do
  let rows := L.findSize.1
  let cols := L.findSize.2
  if L.entries.length = 0 then
    b.assert (rows ≥ 0)
    b.assert (cols ≥ 0)
    let p ← mkVec (rows + 1) (0 : Int)
    .ok (⟨rows, cols, p, [], []⟩, L)
  else
    let entries := L.entries.map sort
    let indptr ← mkVec (rows + 1) (0 : Int)
    let indptr ← wr indptr 0 0
    let st ← forUp 0 (entries.length : Int) (indptr, ([] : List Int), ([] : List α)) (fun i st => do
      let currentRow ← rd st.1 i
      let row ← rd entries i
      let e ← row.foldlM (Lil.mergeStep currentRow) st.2
      let p ← wr st.1 (i + 1) (e.2.length : Int)
      .ok (p, e.1, e.2))
    let A ← ofArrays b st.1 st.2.1 st.2.2 rows cols
    .ok (A, { L with entries := entries })

/-- `Mult(input, output)` (include/lilmatrix.hpp:410-432). -/
def lilMult [Zero α] [Add α] [Mul α] (b : Build) (L : Lil α) (input output : List α) : Res (List α) := do
  b.assert (L.findSize.1 = output.length)
  b.assert (L.findSize.2 = input.length)
  forUp 0 (L.entries.length : Int) (List.replicate output.length 0) (fun i out => do
    let row ← rd L.entries i
    row.foldlM (fun out node => do
      let x ← vrd b input node.1
      let old ← vrd b out i
      vwr b out i (old + node.2 * x)) out)

/-- `MultAT(input, output)` (include/lilmatrix.hpp:434-456). -/
def lilMultAT [Zero α] [Add α] [Mul α] (b : Build) (L : Lil α) (input output : List α) : Res (List α) := do
  b.assert (L.findSize.1 = output.length)
  b.assert (L.findSize.2 = input.length)
  forUp 0 (L.entries.length : Int) (List.replicate output.length 0) (fun i out => do
    let row ← rd L.entries i
    row.foldlM (fun out node => do
      let x ← vrd b input i
      let old ← vrd b out node.1
      vwr b out node.1 (old + node.2 * x)) out)

end Rel
end Linalg
