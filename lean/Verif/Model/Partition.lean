import Verif.Model.Sparse
import Verif.Model.View

/-!
# Graph partitioning (modules/partition/include/partition.hpp)

`conv` is the conversion from `double` to METIS's index type, which truncates.  METIS itself is a parameter; what it is assumed to
return is stated in `Verif.Props.Partition`.  The two `reserve` calls are modelled because their argument can be negative, which
as a `std::size_t` is larger than `max_size()`, and `reserve` then throws `std::length_error`.
-/

namespace Linalg
open Cpp

variable {α β : Type}

namespace Metis

/-- The inner loop body of `MakeAdjacencyInfo` (modules/partition/include/partition.hpp:33-42). -/
def pushEdge [Lattice α] [AddGroup α] [One α] (conv : α → β) (A : Csr α) (weighted : Bool) (i j : Int) (e : List Int × List β) :
    Res (List Int × List β) := do
  let col ← rd A.indices j
  if col ≠ i then
    let w ← if weighted then (do let d ← rd A.data j; .ok |d|) else .ok 1
    .ok (e.1 ++ [col], e.2 ++ [conv w])
  else .ok e

/-- `MakeAdjacencyInfo(mat, weighted)` (modules/partition/include/partition.hpp:14-48). -/
def makeAdjacencyInfo [Lattice α] [AddGroup α] [One α] (conv : α → β) (A : Csr α) (weighted : Bool) :
    Res (List Int × List Int × List β) := do
  cassert (A.cols = A.rows)
  let numEdges := (A.nnz - A.rows).tdiv 2
  let indptr ← mkVec (A.rows + 1) (0 : Int)
  cverify (0 ≤ numEdges)
  let indptr ← wr indptr 0 0
  forUp 0 A.rows (indptr, ([] : List Int), ([] : List β)) (fun i st => do
    let e ← A.forRow i (st.2.1, st.2.2) (pushEdge conv A weighted i)
    let indptr ← wr st.1 (i + 1) (e.1.length : Int)
    .ok (indptr, e.1, e.2))

/-- `RemoveEmpty(partition)` (modules/partition/include/partition.hpp:50-83). -/
def removeEmpty (partition : List Int) : Res (List Int) :=
  match partition with
  | [] => .error .assertFail
  | a :: l => do
    let numParts := Vec.maxElement (fun a b => a < b) a l + 1
    let counter ← mkVec numParts (0 : Int)
    let shifter ← mkVec numParts (0 : Int)
    let counter ← (a :: l).foldlM (fun c i => do
      let x ← rd c i
      wr c i (x + 1)) counter
    let st ← forUp 0 numParts ((0 : Int), shifter) (fun i st => do
      let c ← rd counter i
      let shift := if c = 0 then st.1 + 1 else st.1
      let shifter ← wr st.2 i shift
      .ok (shift, shifter))
    forUp 0 ((a :: l).length : Int) (a :: l) (fun i p => do
      let v ← rd p i
      let s ← rd st.2 v
      wr p i (v - s))

/-- What `METIS_PartGraphKway` computes: the number of vertices, the adjacency arrays, the edge weights, the number of parts and
the two options give the part of every vertex.  Its return code is ignored by the code. -/
abbrev Kway (β : Type) := Int → List Int → List Int → List β → Int → Bool → List Int

/-- `Partition(mat, num_parts, unbalance_factor, contig, weighted)` (modules/partition/include/partition.hpp:106-152), for
`idx_t = int`.  The unbalance factor is only passed on to METIS and is part of `metis` here. -/
def partition [Lattice α] [AddGroup α] [One α] (conv : α → β) (metis : Kway β) (A : Csr α) (numParts : Int) (contig weighted : Bool) :
    Res (List Int) := do
  cassert (numParts > 0)
  cassert (numParts ≤ A.rows)
  cassert (A.cols = A.rows)
  if numParts < 2 then
    mkVec A.rows (0 : Int)
  else
    let adj ← makeAdjacencyInfo conv A weighted
    removeEmpty (metis A.rows adj.1 adj.2.1 adj.2.2 numParts contig)

end Metis
end Linalg
