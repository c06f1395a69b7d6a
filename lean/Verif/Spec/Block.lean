import Verif.Model.Block
import Verif.Spec.Csr
import Verif.Spec.Vec

/-!
# What a block matrix means
-/

namespace Linalg
open Cpp

/-- Offsets of blocks that partition `0..n-1`: they start at 0, never decrease and end at `n`. -/
structure Offsets (off : List Int) (n : Int) : Prop where
  first : off.head? = some 0
  mono : off.Pairwise (· ≤ ·)
  last : off.getLast? = some n

/-- Offsets can be checked on concrete lists. -/
instance (off : List Int) (n : Int) : Decidable (Offsets off n) :=
  decidable_of_iff (off.head? = some 0 ∧ off.Pairwise (· ≤ ·) ∧ off.getLast? = some n)
    ⟨fun ⟨a, b, c⟩ => ⟨a, b, c⟩, fun ⟨a, b, c⟩ => ⟨a, b, c⟩⟩

/-- Block `(i, j)` (empty outside the layout; only used inside). -/
def BlockMat.blk {α : Type} (B : BlockMat α) (i j : Int) : Csr α :=
  if 0 ≤ i ∧ 0 ≤ j then (B.blocks.getD i.toNat []).getD j.toNat Csr.empty else Csr.empty

/-- The number of block rows and block columns. -/
def BlockMat.nI {α : Type} (B : BlockMat α) : Int := B.rowOff.length - 1
/-- The number of block columns. -/
def BlockMat.nJ {α : Type} (B : BlockMat α) : Int := B.colOff.length - 1

/-- A consistent block matrix: the offsets partition the rows and columns, and each block is unset or is a well-formed
matrix of the size the offsets leave for it. -/
structure BlockMat.WF {α : Type} (B : BlockMat α) : Prop where
  rowOff_ok : Offsets B.rowOff B.rows
  colOff_ok : Offsets B.colOff B.cols
  blocks_len : B.blocks.length = B.rowOff.length - 1
  block_row_len : ∀ r ∈ B.blocks, r.length = B.colOff.length - 1
  block_wf : ∀ r ∈ B.blocks, ∀ M ∈ r, M.WF
  block_size : ∀ i j, 0 ≤ i → i < B.nI → 0 ≤ j → j < B.nJ → B.blk i j = Csr.empty ∨
    ((B.blk i j).rows = vecAt B.rowOff (i + 1) - vecAt B.rowOff i ∧
      (B.blk i j).cols = vecAt B.colOff (j + 1) - vecAt B.colOff j)

/-- The same without any condition on the sizes of the blocks: what `SetBlock` leaves when assertions are off. -/
structure BlockMat.Layout {α : Type} (B : BlockMat α) : Prop where
  rowOff_ok : Offsets B.rowOff B.rows
  colOff_ok : Offsets B.colOff B.cols
  blocks_len : B.blocks.length = B.rowOff.length - 1
  block_row_len : ∀ r ∈ B.blocks, r.length = B.colOff.length - 1
  block_wf : ∀ r ∈ B.blocks, ∀ M ∈ r, M.WF

/-- The operator set at `(i, j)`, if any. -/
def BlockOp.opAt {α : Type} (B : BlockOp α) (i j : Int) : Option (Op α) :=
  if 0 ≤ i ∧ 0 ≤ j then (B.blocks.getD i.toNat []).getD j.toNat none else none

/-- The number of block rows. -/
def BlockOp.nI {α : Type} (B : BlockOp α) : Int := B.rowOff.length - 1
/-- The number of block columns. -/
def BlockOp.nJ {α : Type} (B : BlockOp α) : Int := B.colOff.length - 1

/-- A consistent block operator: the offsets partition the rows and columns, each operator has the size of its block, and
the work vectors have the full sizes. -/
structure BlockOp.WF {α : Type} (B : BlockOp α) : Prop where
  rowOff_ok : Offsets B.rowOff B.rows
  colOff_ok : Offsets B.colOff B.cols
  blocks_len : B.blocks.length = B.rowOff.length - 1
  block_row_len : ∀ r ∈ B.blocks, r.length = B.colOff.length - 1
  op_size : ∀ i j op, 0 ≤ i → i < B.nI → 0 ≤ j → j < B.nJ → B.opAt i j = some op →
    op.rows = vecAt B.rowOff (i + 1) - vecAt B.rowOff i ∧ op.cols = vecAt B.colOff (j + 1) - vecAt B.colOff j
  x_len : (B.x.length : Int) = B.cols
  y_len : (B.y.length : Int) = B.rows

/-- The part of a vector between two positions. -/
def subList {α : Type} (x : List α) (a b : Int) : List α := (x.drop a.toNat).take (b - a).toNat

/-- Every application of the operator to a vector of the right length computes `F`, whatever the output held. -/
def Op.Computes {α : Type} (op : Op α) (F : List α → Int → α) : Prop :=
  ∀ x y : List α, (x.length : Int) = op.cols → (y.length : Int) = op.rows →
    ∃ z, op.mult x y = .ok z ∧ VecIs z op.rows (F x)

/-- The same for the transposed action. -/
def Op.ComputesAT {α : Type} (op : Op α) (F : List α → Int → α) : Prop :=
  ∀ x y : List α, (x.length : Int) = op.rows → (y.length : Int) = op.cols →
    ∃ z, op.multAT x y = .ok z ∧ VecIs z op.cols (F x)

end Linalg
