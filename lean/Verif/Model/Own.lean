import Verif.Cpp.Basic

/-!
# Storage of Vector (include/vector.hpp, include/vectorview.hpp): construction, copy, move, swap, assignment, destruction

Elsewhere a `Vector` is the list of its elements.  Here it is what it is in C++: a pointer and a size (the `VectorView` it derives from)
beside a `std::vector` that owns the storage, in a heap of blocks.  A `std::vector` always has a block, possibly of capacity 0.  `resize`
keeps the block if the capacity suffices; how much capacity a new block gets is the parameter `grow`.  A block that is given back can no
longer be accessed.  Only elements below the size of the `std::vector` can be accessed.
-/

namespace Linalg
open Cpp

/-- A block of storage: whether it is allocated, the elements of the `std::vector` in it, its capacity. -/
structure Cells (α : Type) where
  live : Bool
  cells : List α
  cap : Nat
  deriving DecidableEq

abbrev Heap (α : Type) := List (Cells α)

/-- A pointer: null, or a block and a position in it. -/
abbrev Ptr := Option (Nat × Int)

namespace Heap
variable {α : Type}

/-- The block at an address; undefined if it is not allocated. -/
def block (h : Heap α) (b : Nat) : Res (Cells α) :=
  match h[b]? with
  | some B => if B.live then .ok B else .error .undefinedBehaviour
  | none => .error .undefinedBehaviour

/-- `p[k]`. -/
def load (h : Heap α) (p : Ptr) (k : Int) : Res α :=
  match p with
  | none => .error .outOfBounds
  | some (b, o) => do
    let B ← h.block b
    rd B.cells (o + k)

/-- `p[k] = x`. -/
def store (h : Heap α) (p : Ptr) (k : Int) (x : α) : Res (Heap α) :=
  match p with
  | none => .error .outOfBounds
  | some (b, o) => do
    let B ← h.block b
    let c ← wr B.cells (o + k) x
    .ok (h.set b ⟨B.live, c, B.cap⟩)

/-- A new `std::vector` with given elements. -/
def alloc (h : Heap α) (l : List α) : Heap α × Nat := (h ++ [⟨true, l, l.length⟩], h.length)

/-- The destructor of a `std::vector`. -/
def free (h : Heap α) (b : Nat) : Heap α := h.set b ⟨false, [], 0⟩

/-- `std::vector::resize(n, x)`; a negative size is converted to one that is too large. -/
def resize (grow : Nat → Nat → Nat) (h : Heap α) (b : Nat) (n : Int) (x : α) : Res (Heap α × Nat) :=
  if n < 0 then .error .threw
  else do
    let B ← h.block b
    if n.toNat ≤ B.cap ∨ n.toNat ≤ B.cells.length then .ok (h.set b ⟨true, Cpp.resize B.cells n.toNat x, B.cap⟩, b)
    else .ok (h.free b ++ [⟨true, Cpp.resize B.cells n.toNat x, grow B.cap n.toNat⟩], h.length)

/-- Whether `dst` points into the `n` elements from `src`, behind the first. -/
def inside (src : Ptr) (n : Int) (dst : Ptr) : Bool :=
  match src, dst with
  | some (b, o), some (b', o') => b = b' ∧ o < o' ∧ o' < o + n
  | _, _ => false

/-- `std::copy(src, src + n, dst)`: undefined if the target starts inside the source; equal pointers are treated as no change. -/
def copy (h : Heap α) (src : Ptr) (n : Int) (dst : Ptr) : Res (Heap α) :=
  if inside src n dst then .error .undefinedBehaviour
  else forUp 0 n h (fun k h => do
    let x ← h.load src k
    h.store dst k x)

end Heap

/-- `VectorView`: `data_`, `size_` (include/vectorview.hpp:191-193), with the pointer into the heap. -/
structure ViewObj where
  ptr : Ptr
  size : Int
  deriving DecidableEq

/-- `Vector`: the view it derives from, and `data_` (include/vector.hpp:109). -/
structure VecObj where
  view : ViewObj
  data : Nat
  deriving DecidableEq

namespace ViewObj
variable {α : Type}

/-- `operator[]`, reading (include/vectorview.hpp:327-333). -/
def get (v : ViewObj) (h : Heap α) (k : Int) : Res α := do
  cassert (k < v.size)
  h.load v.ptr k

/-- `operator[]`, writing (include/vectorview.hpp:319-325). -/
def put (v : ViewObj) (h : Heap α) (k : Int) (x : α) : Res (Heap α) := do
  cassert (k < v.size)
  h.store v.ptr k x

/-- `VectorView(v.begin() + off, n)` on the elements of a vector (include/vectorview.hpp:203-209, as in include/blockvector.hpp:130-150); asking
for elements the vector does not have is the fault of the caller. -/
def sub (v : ViewObj) (off n : Int) : Res ViewObj := do
  cassert (0 ≤ n)
  if 0 ≤ off ∧ off + n ≤ v.size then .ok ⟨v.ptr.map (fun p => (p.1, p.2 + off)), n⟩ else .error .outOfBounds

/-- `operator=(T val)` (include/vectorview.hpp:287-293). -/
def fill (v : ViewObj) (h : Heap α) (x : α) : Res (Heap α) := forUp 0 v.size h (fun k h => h.store v.ptr k x)

/-- The loops `lhs[i] op= rhs[i]` (include/vectorview.hpp:512-584). -/
def update (v : ViewObj) (f : α → α → α) (w : ViewObj) (h : Heap α) : Res (Heap α) := do
  cassert (v.size = w.size)
  forUp 0 v.size h (fun k h => do
    let b ← w.get h k
    let a ← v.get h k
    v.put h k (f a b))

/-- `operator=(VectorView&)`, `operator=(VectorView&&)` (include/vectorview.hpp:245-268).  `Vector` makes these visible beside its own
(include/vector.hpp:105), and for a view that is not constant they are the better match. -/
def assign (v w : ViewObj) (h : Heap α) : Res (Heap α) := do
  cassert (w.size = v.size)
  h.copy w.ptr w.size v.ptr

/-- The elements from `begin()` to `end()`. -/
def elems (v : ViewObj) (h : Heap α) : Res (List α) := (iota v.size.toNat).mapM (fun k => h.load v.ptr k)

end ViewObj

namespace VecObj
variable {α : Type}

/-- A vector before the body of its constructor runs (include/vectorview.hpp:196-201). -/
def init (h : Heap α) : Heap α × VecObj := ((h.alloc []).1, ⟨⟨none, 0⟩, (h.alloc []).2⟩)

/-- `VectorView<T>::SetData(data_.data(), data_.size())` (include/vectorview.hpp:227-235). -/
def setData (h : Heap α) (o : VecObj) : Res VecObj := do
  let B ← h.block o.data
  .ok ⟨⟨some (o.data, 0), B.cells.length⟩, o.data⟩

/-- `Vector(int size, T val)`, and with `val = T()` `Vector(int size)` (include/vector.hpp:118-132). -/
def ofVal (grow : Nat → Nat → Nat) (h : Heap α) (n : Int) (x : α) : Res (Heap α × VecObj) := do
  let (h, o) := init h
  let (h, b) ← h.resize grow o.data n x
  let o ← setData h ⟨o.view, b⟩
  .ok (h, o)

/-- `Vector(std::vector<T> vect)`: the storage of the argument is swapped in (include/vector.hpp:153-159), `Vector(const T* data, int size)`
(include/vector.hpp:134-142). -/
def ofStd (h : Heap α) (l : List α) : Res (Heap α × VecObj) := do
  let (h, b) := h.alloc l
  let o ← setData h ⟨⟨none, 0⟩, b⟩
  .ok (h, o)

/-- `Vector(const VectorView<T>& vect)` (include/vector.hpp:144-151). -/
def ofView (grow : Nat → Nat → Nat) [Zero α] (h : Heap α) (w : ViewObj) : Res (Heap α × VecObj) := do
  let (h, o) := init h
  let (h, b) ← h.resize grow o.data w.size 0
  let h ← h.copy w.ptr w.size (some (b, 0))
  let o ← setData h ⟨o.view, b⟩
  .ok (h, o)

/-- `Vector(const Vector<T>& vect)` (include/vector.hpp:161-166). -/
def copy (h : Heap α) (w : VecObj) : Res (Heap α × VecObj) := do
  let B ← h.block w.data
  let (h, b) := h.alloc B.cells
  let o ← setData h ⟨⟨none, 0⟩, b⟩
  .ok (h, o)

/-- `swap(Vector<U>& lhs, Vector<U>& rhs)` (include/vector.hpp:234-239, include/vectorview.hpp:280-285). -/
def swap (v w : VecObj) : VecObj × VecObj := (⟨w.view, w.data⟩, ⟨v.view, v.data⟩)

/-- `Vector(Vector<T>&& vect)` (include/vector.hpp:168-174): the new vector and what the old one becomes. -/
def move (h : Heap α) (w : VecObj) : Res (Heap α × VecObj × VecObj) := do
  let (h, o) := init h
  let (o, w) := swap o w
  let o ← setData h o
  .ok (h, o, w)

/-- `SetSize(int size, T val)`, and with `val = T()` `SetSize(int size)` (include/vector.hpp:176-200). -/
def setSize (grow : Nat → Nat → Nat) (h : Heap α) (v : VecObj) (n : Int) (x : α) : Res (Heap α × VecObj) :=
  if n ≠ v.view.size then do
    cassert (0 ≤ n)
    let (h, b) ← h.resize grow v.data n x
    let v ← setData h ⟨v.view, b⟩
    .ok (h, v)
  else .ok (h, v)

/-- `operator=(const Vector<T>& vect)`, of different objects (include/vector.hpp:202-211). -/
def assign (grow : Nat → Nat → Nat) [Zero α] (h : Heap α) (v w : VecObj) : Res (Heap α × VecObj) := do
  let (h, b) ← h.resize grow v.data w.view.size 0
  let B ← h.block w.data
  let h ← h.copy (some (w.data, 0)) B.cells.length (some (b, 0))
  let v ← setData h ⟨v.view, b⟩
  .ok (h, v)

/-- `operator=(const Vector<T>& vect)` with `vect` the same object (include/vector.hpp:202-211): the new storage of the one is that of the other. -/
def assignSelf (grow : Nat → Nat → Nat) [Zero α] (h : Heap α) (v : VecObj) : Res (Heap α × VecObj) := do
  let (h, b) ← h.resize grow v.data v.view.size 0
  let B ← h.block b
  let h ← h.copy (some (b, 0)) B.cells.length (some (b, 0))
  let v ← setData h ⟨v.view, b⟩
  .ok (h, v)

/-- `operator=(const VectorView<T>& vect)` (include/vector.hpp:213-222). -/
def assignView (grow : Nat → Nat → Nat) [Zero α] (h : Heap α) (v : VecObj) (w : ViewObj) : Res (Heap α × VecObj) := do
  let (h, b) ← h.resize grow v.data w.size 0
  let h ← h.copy w.ptr w.size (some (b, 0))
  let v ← setData h ⟨v.view, b⟩
  .ok (h, v)

/-- `operator=(Vector<T>&& vect)` (include/vector.hpp:224-232). -/
def assignMove (h : Heap α) (v w : VecObj) : Res (VecObj × VecObj) := do
  let (v, w) := swap v w
  let v ← setData h v
  .ok (v, w)

end VecObj

/-! ## Programs -/

/-- The heap and the vectors a program has made, in order; `none` after destruction. -/
structure Store (α : Type) where
  heap : Heap α
  vecs : List (Option VecObj)

/-- What a program can do with its vectors; vectors are named by the order of their construction. -/
inductive Stmt (α : Type)
  /-- `Vector(n, x)` -/
  | make (n : Int) (x : α)
  /-- `Vector(std::vector)` -/
  | std (l : List α)
  /-- `Vector(view)` of `n` elements of vector `i` from `off` -/
  | ofView (i : Nat) (off n : Int)
  /-- `Vector(v)` -/
  | copy (i : Nat)
  /-- `Vector(std::move(v))` -/
  | move (i : Nat)
  /-- `v.SetSize(n, x)` -/
  | setSize (i : Nat) (n : Int) (x : α)
  /-- `v = w` -/
  | assign (i j : Nat)
  /-- `v = view`, for a constant view of `n` elements of vector `j` from `off` -/
  | assignView (i j : Nat) (off n : Int)
  /-- `v = view`, for a view of `n` elements of vector `j` from `off` that is not constant -/
  | assignMut (i j : Nat) (off n : Int)
  /-- `v = std::move(w)` -/
  | assignMove (i j : Nat)
  /-- `swap(v, w)` -/
  | swap (i j : Nat)
  /-- the end of the life of `v` -/
  | destroy (i : Nat)
  /-- `v[k] = x` -/
  | put (i : Nat) (k : Int) (x : α)
  /-- `v = x` -/
  | fill (i : Nat) (x : α)
  /-- `v op= w` -/
  | update (i : Nat) (f : α → α → α) (j : Nat)

namespace Store
variable {α : Type}

/-- The vector with a name; there must be one. -/
def vec (s : Store α) (i : Nat) : Res VecObj :=
  match s.vecs[i]? with
  | some (some o) => .ok o
  | _ => .error .undefinedBehaviour

/-- One statement of a program. -/
def step (grow : Nat → Nat → Nat) [Zero α] (s : Store α) : Stmt α → Res (Store α)
  | .make n x => do
    let (h, o) ← VecObj.ofVal grow s.heap n x
    .ok ⟨h, s.vecs ++ [some o]⟩
  | .std l => do
    let (h, o) ← VecObj.ofStd s.heap l
    .ok ⟨h, s.vecs ++ [some o]⟩
  | .ofView i off n => do
    let v ← s.vec i
    let w ← v.view.sub off n
    let (h, o) ← VecObj.ofView grow s.heap w
    .ok ⟨h, s.vecs ++ [some o]⟩
  | .copy i => do
    let v ← s.vec i
    let (h, o) ← VecObj.copy s.heap v
    .ok ⟨h, s.vecs ++ [some o]⟩
  | .move i => do
    let v ← s.vec i
    let (h, o, v) ← VecObj.move s.heap v
    .ok ⟨h, s.vecs.set i (some v) ++ [some o]⟩
  | .setSize i n x => do
    let v ← s.vec i
    let (h, v) ← VecObj.setSize grow s.heap v n x
    .ok ⟨h, s.vecs.set i (some v)⟩
  | .assign i j => do
    let v ← s.vec i
    let w ← s.vec j
    let (h, v) ← if i = j then VecObj.assignSelf grow s.heap v else VecObj.assign grow s.heap v w
    .ok ⟨h, s.vecs.set i (some v)⟩
  | .assignView i j off n => do
    let v ← s.vec i
    let u ← s.vec j
    let w ← u.view.sub off n
    let (h, v) ← VecObj.assignView grow s.heap v w
    .ok ⟨h, s.vecs.set i (some v)⟩
  | .assignMut i j off n => do
    let v ← s.vec i
    let u ← s.vec j
    let w ← u.view.sub off n
    let h ← v.view.assign w s.heap
    .ok ⟨h, s.vecs⟩
  | .assignMove i j => do
    let v ← s.vec i
    let w ← s.vec j
    let (v', w') ← VecObj.assignMove s.heap v w
    .ok ⟨s.heap, (s.vecs.set j (some w')).set i (some v')⟩
  | .swap i j => do
    let v ← s.vec i
    let w ← s.vec j
    .ok ⟨s.heap, (s.vecs.set j (some (VecObj.swap v w).2)).set i (some (VecObj.swap v w).1)⟩
  | .destroy i => do
    let v ← s.vec i
    .ok ⟨s.heap.free v.data, s.vecs.set i none⟩
  | .put i k x => do
    let v ← s.vec i
    let h ← v.view.put s.heap k x
    .ok ⟨h, s.vecs⟩
  | .fill i x => do
    let v ← s.vec i
    let h ← v.view.fill s.heap x
    .ok ⟨h, s.vecs⟩
  | .update i f j => do
    let v ← s.vec i
    let w ← s.vec j
    let h ← v.view.update f w.view s.heap
    .ok ⟨h, s.vecs⟩

/-- A program. -/
def run (grow : Nat → Nat → Nat) [Zero α] (ops : List (Stmt α)) (s : Store α) : Res (Store α) := ops.foldlM (step grow) s

/-- The elements of a vector, as the program sees them. -/
def elems (s : Store α) (i : Nat) : Res (List α) := do
  let v ← s.vec i
  v.view.elems s.heap

end Store
end Linalg
