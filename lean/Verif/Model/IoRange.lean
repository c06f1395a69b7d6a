import Verif.Model.Io
import Verif.Model.Width

/-!
# Reading files with `int` of 32 bits, `size_t` of 64 bits and memory that can run out (include/parser.hpp)

The readers of `Model/Io.lean` again.  A number that does not fit an `int` is stored as the nearest `int` and sets the fail bit (since C++11); for
`size_t` the sign is accepted, the value is taken modulo `2 ^ 64`, and a number of `2 ^ 64` or more is stored as `2 ^ 64 - 1` and sets the fail bit.
Additions and subtractions on `int` that do not fit are undefined (`fit`, `Model/Width.lean`).  `mem` is the number of elements above which
`std::vector<T>(n)` throws; only the vectors whose size comes straight from the file (`ReadCSR`, `ReadBinaryMat`, `ReadBinaryVect`) are checked.
-/

namespace Linalg
open Cpp

namespace Io
variable {α : Type}

/-- Fits an `int` of 32 bits. -/
def inInt (v : Int) : Bool := decide (-intMax - 1 ≤ v ∧ v ≤ intMax)

/-- `int` with its range, for `>>` as the condition of a loop: what a failed conversion stores is not used. -/
def int32 : Fmt Int :=
  ⟨showInt, fun t =>
    match scanInt t with
    | (some v, r) => (if inInt v then some v else none, r)
    | (none, r) => (none, r)⟩

/-- `stream >> x` for an `int` (`x` before and after). -/
def extractInt (s : IStream) (x : Option Int) : Option Int × IStream :=
  if s.failed then (x, s)
  else
    match s.rest.dropWhile isSpace with
    | [] => (x, ⟨[], true⟩)
    | t =>
      match scanInt t with
      | (some v, r) => (some (max (-intMax - 1) (min v intMax)), ⟨r, !inInt v⟩)
      | (none, r) => (some 0, ⟨r, true⟩)

/-- `size_t` has the values below this. -/
def sizeEnd : Nat := 2 ^ 64

/-- `stream >> x` for a `size_t`. -/
def extractSize (s : IStream) (x : Option Nat) : Option Nat × IStream :=
  if s.failed then (x, s)
  else
    match s.rest.dropWhile isSpace with
    | [] => (x, ⟨[], true⟩)
    | t =>
      match scanInt t with
      | (some v, r) => if v.natAbs < sizeEnd then (some (v % sizeEnd).toNat, ⟨r, false⟩) else (some (sizeEnd - 1), ⟨r, true⟩)
      | (none, r) => (some 0, ⟨r, true⟩)

/-- `std::vector<T>(n)`: throws if there is no memory. -/
def alloc (mem n : Nat) : Res Unit := if n ≤ mem then .ok () else .error .threw

/-- The body of the loops that add an entry; `i - base` is an `int`. -/
def addEntry32 (base : Int) (symmetric : Bool) (C : Coo α) (e : Int × Int × α) : Res (Coo α) := do
  let i ← fit intMax (e.1 - base)
  let j ← fit intMax (e.2.1 - base)
  let C ← C.add i j e.2.2
  if symmetric ∧ e.1 ≠ e.2.1 then C.add j i e.2.2 else .ok C

/-- `ReadAdjList(file_name, symmetric)` (include/parser.hpp:202-231). -/
def readAdjList32 [Zero α] [Add α] [One α] (file : Option Text) (symmetric : Bool) : Res (Csr α) := do
  let s ← openIn file
  let C ← (readAll (step2 int32 int32) s).foldlM (fun C e => addEntry32 0 symmetric C (e.1, e.2, 1)) Coo.new
  C.toSparseOn (fit intMax)

/-- `ReadGraphList(file_name)` (include/parser.hpp:241-270). -/
def readGraphList32 [Zero α] [Add α] [One α] [Neg α] (file : Option Text) : Res (Csr α) := do
  let s ← openIn file
  let C ← (readAll (step2 int32 int32) s).foldlM addEdge Coo.new
  C.toSparseOn (fit intMax)

/-- `ReadCooList(file_name, symmetric)` (include/parser.hpp:322-351). -/
def readCooList32 [Zero α] [Add α] (F : Fmt α) (file : Option Text) (symmetric : Bool) : Res (Csr α) := do
  let s ← openIn file
  let C ← (readAll (step3 int32 F) s).foldlM (fun C e => addEntry32 0 symmetric C e) Coo.new
  C.toSparseOn (fit intMax)

/-- `ReadTable(file_name)` (include/parser.hpp:402-436); `indptr` holds sizes converted to `int`. -/
def readTable32 [One α] (file : Option Text) : Res (Csr α) := do
  let s ← openIn file
  let rows := (readAll getLine s).map (fun line => readAll (step1 int32) ⟨line, false⟩)
  let indices := rows.flatten
  let indptr := rows.foldl (fun p r => p ++ [p.getLastD 0 + (r.length : Int)]) [0]
  match indices.max? with
  | none => .error .undefinedBehaviour
  | some m => do
    let cols ← fit intMax (m + 1)
    Csr.ofArrays (indptr.map (fun k => castInt intMax k.toNat)) indices (List.replicate indices.length 1) (castInt intMax (indptr.length - 1)) cols

/-- The size line and `CooMatrix<T> coo(rows, cols); coo.Reserve(nnz)` (include/parser.hpp:595-603, 653-661). -/
def mtxSize32 (line : Text) : Res (Coo α) := do
  let r := extractInt ⟨line, false⟩ none
  let c := extractInt r.2 none
  let z := extractInt c.2 none
  let rows ← useVar r.1
  let cols ← useVar c.1
  let C ← Coo.ofSize rows cols
  let nnz ← useVar z.1
  cassert (nnz ≥ 0)
  .ok C

/-- `ReadMTX(file_name)` (include/parser.hpp:577-623). -/
def readMtx32 [Zero α] [Add α] (F : Fmt α) (file : Option Text) : Res (Csr α) := do
  let s ← openIn file
  let h := mtxHeader (s.rest.length + 1) false s
  let C ← mtxSize32 h.2.1
  let C ← (readAll (step3 int32 F) h.2.2).foldlM (fun C e => addEntry32 1 h.1 C e) C
  C.toSparseOn (fit intMax)

/-- `ReadMTXList(file_name)` (include/parser.hpp:635-681). -/
def readMtxList32 [Zero α] [Add α] [One α] (file : Option Text) : Res (Csr α) := do
  let s ← openIn file
  let h := mtxHeader (s.rest.length + 1) false s
  let C ← mtxSize32 h.2.1
  let C ← (readAll (step2 int32 int32) h.2.2).foldlM (fun C e => addEntry32 1 h.1 C (e.1, e.2, 1)) C
  C.toSparseOn (fit intMax)

/-- `for (i = 0; i < n; ++i) file >> v[i]` into a new vector of `n` zeros, for `int`. -/
def readIntoInt : Nat → IStream → List Int × IStream
  | 0, s => ([], s)
  | n + 1, s =>
    let r := extractInt s (some 0)
    let t := readIntoInt n r.2
    (r.1.getD 0 :: t.1, t.2)

/-- `ReadCSR(file_name)` (include/parser.hpp:479-520): `rows` and `cols` are `size_t`, `rows + 1` is taken modulo `2 ^ 64`; `indptr.back()` of an empty
vector is undefined; a negative `nnz` becomes a huge size. -/
def readCsr32 [Zero α] (mem : Nat) (F : Fmt α) (file : Option Text) : Res (Csr α) := do
  let s ← openIn file
  let r := extractSize s none
  let c := extractSize r.2 none
  let rows ← useVar r.1
  let n := (rows + 1) % sizeEnd
  alloc mem n
  let p := readIntoInt n c.2
  let nnz ← lastOf p.1
  if nnz < 0 then .error .threw
  else do
    alloc mem nnz.toNat
    let ix := readIntoInt nnz.toNat p.2
    let dt := readInto F nnz.toNat ix.2
    let cols ← useVar c.1
    Csr.ofArrays p.1 ix.1 dt.1 (castInt intMax rows) (castInt intMax cols)

/-- `ReadBinaryVect(file_name)` (include/parser.hpp:95-114). -/
def readBinaryVec64 [Zero α] (mem : Nat) (R : Rep α) (file : Option (List Byte)) : Res (List α) := do
  let s ← openBin file
  let n := readBytes 8 (leBytes 8 0) s
  alloc mem (leVal n.1)
  let r ← readArr R (leVal n.1) n.2
  .ok r.1

/-- `ReadBinaryMat(file_name)` (include/parser.hpp:160-189). -/
def readBinaryMat64 [Zero α] (mem : Nat) (R : Rep α) (file : Option (List Byte)) : Res (Csr α) := do
  let s ← openBin file
  let r := readSize s
  let c := readSize r.2
  let z := readSize c.2
  let rows ← useVar r.1
  let n := (rows + 1) % sizeEnd
  alloc mem n
  let nnz ← useVar z.1
  alloc mem nnz
  let p ← readArr intRep n z.2
  let ix ← readArr intRep nnz p.2
  let dt ← readArr R nnz ix.2
  let cols ← useVar c.1
  Csr.ofArrays p.1 ix.1 dt.1 (castInt intMax rows) (castInt intMax cols)

end Io
end Linalg
