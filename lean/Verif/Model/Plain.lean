import Verif.Model.Life
import Verif.Model.Block
import Verif.Model.Coo
import Verif.Model.Lil

/-!
# Copying, moving, swapping and assigning the sequential classes

`SparseMatrix`, `DenseMatrix`, `CooMatrix`, `LilMatrix`, `BlockMatrix`, `BlockVector` and `BlockOperator` keep everything in
`std::vector`s.  All but `BlockOperator` write the same four functions by hand: the copy constructor copies member by member, the move
constructor leaves the members to their own default constructors and swaps, `operator=` takes its argument by value and swaps, and `swap`
exchanges member by member.  `BlockOperator` declares no `operator=`, and its move constructor deletes the implicit one.

A member of type `bool` without an initialiser is indeterminate in the object the move constructor starts from; this is `none` below.
The elements of a `BlockVector` are a list: that `Vector` is a value is proved separately (C90).
-/

namespace Linalg
open Cpp

/-- A class whose objects own no cells: constructed from `A`, changed in place by `U`. -/
structure PlainCls (O A U : Type) where
  make : A → Res O
  /-- the copy constructor -/
  copy : O → Res O
  /-- the new object in the move constructor, before it swaps with its argument -/
  blank : O
  /-- `swap(lhs, rhs)`: the two objects afterwards -/
  swap : O → O → O × O
  /-- member functions that change the object -/
  update : O → U → Res O

namespace PlainCls
variable {O A U : Type}

/-- The object with a name; there must be one. -/
def obj (w : List (Option O)) (i : Nat) : Res O :=
  match w[i]? with
  | some (some o) => .ok o
  | _ => .error .undefinedBehaviour

/-- One statement. -/
def step (K : PlainCls O A U) (w : List (Option O)) : LifeStmt A U → Res (List (Option O))
  | .make a => do
    let o ← K.make a
    .ok (w ++ [some o])
  | .copy i => do
    let s ← obj w i
    let o ← K.copy s
    .ok (w ++ [some o])
  | .move i => do
    let s ← obj w i
    let (o, s) := K.swap K.blank s
    .ok (w.set i (some s) ++ [some o])
  | .assign i j => do
    let s ← obj w i
    let t ← obj w j
    let p ← K.copy t
    let (s, _) := K.swap s p
    .ok (w.set i (some s))
  | .assignMove i j => do
    let _ ← obj w i
    let t ← obj w j
    let (p, t) := K.swap K.blank t
    let w := w.set j (some t)
    let s ← obj w i
    let (s, _) := K.swap s p
    .ok (w.set i (some s))
  | .swap i j => do
    let s ← obj w i
    let t ← obj w j
    let (s, t) := K.swap s t
    .ok ((w.set j (some t)).set i (some s))
  | .destroy i => do
    let _ ← obj w i
    .ok (w.set i none)
  | .update i u => do
    let s ← obj w i
    let s ← K.update s u
    .ok (w.set i (some s))

/-- A program. -/
def run (K : PlainCls O A U) (ops : List (LifeStmt A U)) (w : List (Option O)) : Res (List (Option O)) := ops.foldlM (step K) w

end PlainCls

/-- `Operator(const Operator&)` (src/operator.cpp:25-30). -/
def copySizes (rows cols : Int) : Res (Int × Int) := do
  cassert (rows ≥ 0)
  cassert (cols ≥ 0)
  .ok (rows, cols)

/-- `swap(Operator&, Operator&)` (src/operator.cpp:54-58): both sizes of the left and of the right operator afterwards. -/
def swapSizes (l r : Int × Int) : (Int × Int) × (Int × Int) := ((r.1, r.2), (l.1, l.2))

variable {α : Type}

namespace Csr

/-- `SparseMatrix(const SparseMatrix&)` (include/sparsematrix.hpp:494-499). -/
def copyCtor (A : Csr α) : Res (Csr α) := do
  let s ← copySizes A.rows A.cols
  .ok ⟨s.1, s.2, A.indptr, A.indices, A.data⟩

/-- The new matrix in `SparseMatrix(SparseMatrix&&)` (include/sparsematrix.hpp:501-505): no initialiser, so every array is empty, and not
`{0}` as `SparseMatrix()` has it (444-449). -/
def moveInit : Csr α := ⟨0, 0, [], [], []⟩

/-- `swap(SparseMatrix&, SparseMatrix&)` (include/sparsematrix.hpp:515-523). -/
def swapObj (l r : Csr α) : Csr α × Csr α :=
  let s := swapSizes (l.rows, l.cols) (r.rows, r.cols)
  (⟨s.1.1, s.1.2, r.indptr, r.indices, r.data⟩, ⟨s.2.1, s.2.2, l.indptr, l.indices, l.data⟩)

/-- `class SparseMatrix` with constructors `make` and member functions `update`. -/
def cls {A U : Type} (make : A → Res (Csr α)) (update : Csr α → U → Res (Csr α)) : PlainCls (Csr α) A U :=
  ⟨make, copyCtor, moveInit, swapObj, update⟩

end Csr

namespace Dense

/-- `DenseMatrix(const DenseMatrix&)` (src/densematrix.cpp:55-58). -/
def copyCtor (D : Dense α) : Res (Dense α) := do
  let s ← copySizes D.rows D.cols
  .ok ⟨s.1, s.2, D.data⟩

/-- The new matrix in `DenseMatrix(DenseMatrix&&)` (src/densematrix.cpp:60-63). -/
def moveInit : Dense α := ⟨0, 0, []⟩

/-- `swap(DenseMatrix&, DenseMatrix&)` (src/densematrix.cpp:72-77). -/
def swapObj (l r : Dense α) : Dense α × Dense α :=
  let s := swapSizes (l.rows, l.cols) (r.rows, r.cols)
  (⟨s.1.1, s.1.2, r.data⟩, ⟨s.2.1, s.2.2, l.data⟩)

/-- `class DenseMatrix`. -/
def cls {A U : Type} (make : A → Res (Dense α)) (update : Dense α → U → Res (Dense α)) : PlainCls (Dense α) A U :=
  ⟨make, copyCtor, moveInit, swapObj, update⟩

end Dense

/-- A `CooMatrix` object (include/coomatrix.hpp:252-254); `sizeSet` is `none` while it is indeterminate. -/
structure CooObj (α : Type) where
  rows : Int
  cols : Int
  sizeSet : Option Bool
  entries : List (Int × Int × α)
  deriving DecidableEq

namespace CooObj

/-- The object a constructor builds. -/
def ofCoo (C : Coo α) : CooObj α := ⟨C.rows, C.cols, some C.sizeSet, C.entries⟩

/-- The matrix a member function works on: `Add` (include/coomatrix.hpp:332) and `FindSize` (705), and so every function that asks for
the size, read `size_set_`. -/
def read (o : CooObj α) : Res (Coo α) :=
  match o.sizeSet with
  | some b => .ok ⟨o.rows, o.cols, b, o.entries⟩
  | none => .error .undefinedBehaviour

/-- `SetSize` (include/coomatrix.hpp:305-315) writes `size_set_` without reading it. -/
def setSize (o : CooObj α) (rows cols : Int) : Res (CooObj α) := do
  cassert (rows ≥ 0)
  cassert (cols ≥ 0)
  .ok { o with sizeSet := some true, rows := rows, cols := cols }

/-- `CooMatrix(const CooMatrix&)` (include/coomatrix.hpp:275-280). -/
def copyCtor (o : CooObj α) : Res (CooObj α) := do
  let s ← copySizes o.rows o.cols
  .ok ⟨s.1, s.2, o.sizeSet, o.entries⟩

/-- The new matrix in `CooMatrix(CooMatrix&&)` (include/coomatrix.hpp:282-286): `size_set_` has no initialiser. -/
def moveInit : CooObj α := ⟨0, 0, none, []⟩

/-- `swap(CooMatrix&, CooMatrix&)` (include/coomatrix.hpp:296-303). -/
def swapObj (l r : CooObj α) : CooObj α × CooObj α :=
  let s := swapSizes (l.rows, l.cols) (r.rows, r.cols)
  (⟨s.1.1, s.1.2, r.sizeSet, r.entries⟩, ⟨s.2.1, s.2.2, l.sizeSet, l.entries⟩)

/-- The same by the letter of the standard: `std::swap` on a `bool` reads both values, and reading an indeterminate one is undefined. -/
def swapStrict (l r : CooObj α) : Res (CooObj α × CooObj α) :=
  match l.sizeSet, r.sizeSet with
  | some _, some _ => .ok (swapObj l r)
  | _, _ => .error .undefinedBehaviour

/-- `class CooMatrix`. -/
def cls {A U : Type} (make : A → Res (CooObj α)) (update : CooObj α → U → Res (CooObj α)) : PlainCls (CooObj α) A U :=
  ⟨make, copyCtor, moveInit, swapObj, update⟩

end CooObj

/-- A `LilMatrix` object (include/lilmatrix.hpp:176-178). -/
structure LilObj (α : Type) where
  rows : Int
  cols : Int
  sizeSet : Option Bool
  entries : List (List (Int × α))
  deriving DecidableEq

namespace LilObj

/-- The object a constructor builds. -/
def ofLil (L : Lil α) : LilObj α := ⟨L.rows, L.cols, some L.sizeSet, L.entries⟩

/-- The matrix a member function works on: `Add` (include/lilmatrix.hpp:265) and `FindSize` (498) read `size_set_`. -/
def read (o : LilObj α) : Res (Lil α) :=
  match o.sizeSet with
  | some b => .ok ⟨o.rows, o.cols, b, o.entries⟩
  | none => .error .undefinedBehaviour

/-- `LilMatrix(const LilMatrix&)` (include/lilmatrix.hpp:200-206). -/
def copyCtor (o : LilObj α) : Res (LilObj α) := do
  let s ← copySizes o.rows o.cols
  .ok ⟨s.1, s.2, o.sizeSet, o.entries⟩

/-- The new matrix in `LilMatrix(LilMatrix&&)` (include/lilmatrix.hpp:208-212). -/
def moveInit : LilObj α := ⟨0, 0, none, []⟩

/-- `swap(LilMatrix&, LilMatrix&)` (include/lilmatrix.hpp:222-229). -/
def swapObj (l r : LilObj α) : LilObj α × LilObj α :=
  let s := swapSizes (l.rows, l.cols) (r.rows, r.cols)
  (⟨s.1.1, s.1.2, r.sizeSet, r.entries⟩, ⟨s.2.1, s.2.2, l.sizeSet, l.entries⟩)

/-- The same by the letter of the standard. -/
def swapStrict (l r : LilObj α) : Res (LilObj α × LilObj α) :=
  match l.sizeSet, r.sizeSet with
  | some _, some _ => .ok (swapObj l r)
  | _, _ => .error .undefinedBehaviour

/-- `class LilMatrix`. -/
def cls {A U : Type} (make : A → Res (LilObj α)) (update : LilObj α → U → Res (LilObj α)) : PlainCls (LilObj α) A U :=
  ⟨make, copyCtor, moveInit, swapObj, update⟩

end LilObj

namespace BlockMat

/-- `BlockMatrix(const BlockMatrix&)` (include/blockmatrix.hpp:140-146); each block is copied by its own copy constructor. -/
def copyCtor (B : BlockMat α) : Res (BlockMat α) := do
  let s ← copySizes B.rows B.cols
  let blocks ← B.blocks.mapM (fun row => row.mapM Csr.copyCtor)
  .ok ⟨s.1, s.2, B.rowOff, B.colOff, blocks⟩

/-- The new matrix in `BlockMatrix(BlockMatrix&&)` (include/blockmatrix.hpp:148-152): the offsets are empty, and not `{0}` as
`BlockMatrix()` has them (115-120). -/
def moveInit : BlockMat α := ⟨0, 0, [], [], []⟩

/-- `swap(BlockMatrix&, BlockMatrix&)` (include/blockmatrix.hpp:162-170). -/
def swapObj (l r : BlockMat α) : BlockMat α × BlockMat α :=
  let s := swapSizes (l.rows, l.cols) (r.rows, r.cols)
  (⟨s.1.1, s.1.2, r.rowOff, r.colOff, r.blocks⟩, ⟨s.2.1, s.2.2, l.rowOff, l.colOff, l.blocks⟩)

/-- `class BlockMatrix`. -/
def cls {A U : Type} (make : A → Res (BlockMat α)) (update : BlockMat α → U → Res (BlockMat α)) : PlainCls (BlockMat α) A U :=
  ⟨make, copyCtor, moveInit, swapObj, update⟩

end BlockMat

/-- A `BlockVector` object (include/blockvector.hpp:22-66): the elements and `offsets_`. -/
structure BlockVec (α : Type) where
  elems : List α
  offsets : List Int
  deriving DecidableEq

namespace BlockVec

/-- `BlockVector()` (include/blockvector.hpp:67-72). -/
def empty : BlockVec α := ⟨[], [0]⟩

/-- `BlockVector(offsets)` and `BlockVector(offsets, val)` (include/blockvector.hpp:74-86). -/
def ofOffsets (offsets : List Int) (val : α) : Res (BlockVec α) := do
  let n ← lastOf offsets
  let v ← mkVec n val
  .ok ⟨v, offsets⟩

/-- `BlockVector(const VectorView&, offsets)` (include/blockvector.hpp:88-93). -/
def ofView (data : List α) (offsets : List Int) : BlockVec α := ⟨data, offsets⟩

/-- `BlockVector(const BlockVector&)` (include/blockvector.hpp:95-100). -/
def copyCtor (b : BlockVec α) : Res (BlockVec α) := .ok ⟨b.elems, b.offsets⟩

/-- The new vector in `BlockVector(BlockVector&&)` (include/blockvector.hpp:102-106): the offsets are empty, and not `{0}`. -/
def moveInit : BlockVec α := ⟨[], []⟩

/-- `swap(BlockVector&, BlockVector&)` (include/blockvector.hpp:116-122). -/
def swapObj (l r : BlockVec α) : BlockVec α × BlockVec α := (⟨r.elems, r.offsets⟩, ⟨l.elems, l.offsets⟩)

/-- `GetBlock(int block)` (include/blockvector.hpp:130-150): the elements of the view. -/
def getBlock (b : BlockVec α) (block : Int) : Res (List α) := do
  cassert (block < (b.offsets.length : Int) - 1)
  let lo ← rd b.offsets block
  let hi ← rd b.offsets (block + 1)
  cassert (hi - lo ≥ 0)
  Csr.slice b.elems lo hi

/-- `SetSize(int size)`, inherited from `Vector` (include/vector.hpp:176-187): the offsets are not told. -/
def setSize [Zero α] (b : BlockVec α) (n : Int) : Res (BlockVec α) := do
  let v ← Vec.setSize b.elems n 0
  .ok ⟨v, b.offsets⟩

/-- `operator=(const Vector&)`, `operator=(const VectorView&)`, inherited from `Vector` by the using declaration
(include/blockvector.hpp:62): the elements and the size of the other vector, the same offsets. -/
def assignVec (b : BlockVec α) (v : List α) : BlockVec α := ⟨v, b.offsets⟩

/-- `class BlockVector`. -/
def cls {A U : Type} (make : A → Res (BlockVec α)) (update : BlockVec α → U → Res (BlockVec α)) : PlainCls (BlockVec α) A U :=
  ⟨make, copyCtor, moveInit, swapObj, update⟩

end BlockVec

namespace BlockOp

/-- `BlockOperator(const BlockOperator&)` (src/blockoperator.cpp:32-38): the pointers to the blocks are copied; `tmp_` is not. -/
def copyCtor (B : BlockOp α) : Res (BlockOp α) := do
  let s ← copySizes B.rows B.cols
  .ok ⟨s.1, s.2, B.rowOff, B.colOff, B.blocks, B.x, B.y, []⟩

/-- The new operator in `BlockOperator(BlockOperator&&)` (src/blockoperator.cpp:40-43); `x_` and `y_` are default constructed. -/
def moveInit : BlockOp α := ⟨0, 0, [], [], [], [], [], []⟩

/-- `swap(BlockOperator&, BlockOperator&)` (src/blockoperator.cpp:45-54): `tmp_` is left out. -/
def swapObj (l r : BlockOp α) : BlockOp α × BlockOp α :=
  let s := swapSizes (l.rows, l.cols) (r.rows, r.cols)
  (⟨s.1.1, s.1.2, r.rowOff, r.colOff, r.blocks, r.x, r.y, l.tmp⟩, ⟨s.2.1, s.2.2, l.rowOff, l.colOff, l.blocks, l.x, l.y, r.tmp⟩)

/-- `class BlockOperator`. -/
def cls {A U : Type} (make : A → Res (BlockOp α)) (update : BlockOp α → U → Res (BlockOp α)) : PlainCls (BlockOp α) A U :=
  ⟨make, copyCtor, moveInit, swapObj, update⟩

end BlockOp
end Linalg
