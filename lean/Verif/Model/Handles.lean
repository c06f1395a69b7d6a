import Verif.Model.Life
import Verif.Model.ParVec

/-!
# Distributed vectors and matrices as owners of hypre objects (modules/parlinalgcpp)

Elsewhere a `ParVector` or `ParMatrix` is the values of its members.  Here it is what it is in C++: `std::vector` members with storage
of their own, beside pointers to hypre objects which point back into that storage.  hypre (version 2 before 2.15) is modelled as far as
these classes use it: which objects its functions create, what the ownership flags make its destructors give back.  A `std::vector` always
has a cell, possibly empty.  A communicator is a number, as in MPICH; 0 is none.
-/

namespace Linalg
open Cpp

variable {α : Type}

/-- A pointer; `outside` is the address of something that is not in the modelled memory, such as a local variable or the array of a caller. -/
inductive CPtr
  | null
  | to (k : Nat)
  | outside
  | indeterminate
  deriving DecidableEq

/-- What an address holds. -/
inductive HCell (α : Type)
  /-- the elements of a `std::vector` of integers -/
  | ints (l : List Int)
  /-- the elements of a `std::vector` of numbers -/
  | reals (l : List α)
  /-- `hypre_Vector`: the data and `owns_data` -/
  | loc (data : CPtr) (owns : Bool)
  /-- `hypre_ParVector`: communicator, global size, partitioning, local vector, `owns_data`, `owns_partitioning` -/
  | pvec (comm size : Int) (starts loc : CPtr) (ownsData ownsPart : Bool)
  /-- `hypre_CSRMatrix`: sizes, `i`, `j`, `data`, `rownnz`, `owns_data` -/
  | csr (rows cols : Int) (i j data rownnz : CPtr) (owns : Bool)
  /-- `hypre_ParCSRMatrix`: communicator, global sizes, row and column starts, the two blocks, `col_map_offd`, `comm_pkg`, `owns_data`,
  `owns_row_starts`, `owns_col_starts` -/
  | pmat (comm globalRows globalCols : Int) (rowStarts colStarts diag offd colMap pkg : CPtr) (ownsData ownsRow ownsCol : Bool)
  /-- an array that `hypre_CSRMatrixSetRownnz` makes -/
  | rownnz
  /-- `hypre_ParCSRCommPkg` -/
  | pkg
  deriving DecidableEq

namespace Hypre

/-- The address in a pointer that is followed. -/
def deref : CPtr → Res Nat
  | .to k => .ok k
  | _ => .error .undefinedBehaviour

/-- The integers at a pointer. -/
def ints (m : Mem (HCell α)) (p : CPtr) : Res (List Int) := do
  let k ← deref p
  match ← m.get k with
  | .ints l => .ok l
  | _ => .error .undefinedBehaviour

/-- The numbers at a pointer. -/
def reals (m : Mem (HCell α)) (p : CPtr) : Res (List α) := do
  let k ← deref p
  match ← m.get k with
  | .reals l => .ok l
  | _ => .error .undefinedBehaviour

/-- `hypre_TFree(p)`. -/
def tfree (m : Mem (HCell α)) : CPtr → Res (Mem (HCell α))
  | .null => .ok m
  | .to k => m.free k
  | _ => .error .undefinedBehaviour

/-! ## Vectors -/

/-- `hypre_ParVectorCreate(comm, size, starts)`: it owns its local vector, the data of that, and the partitioning.  It asks MPI about the
communicator. -/
def vecCreate (m : Mem (HCell α)) (comm size : Int) (starts : CPtr) : Res (Mem (HCell α) × Nat) :=
  if comm = 0 then .error .undefinedBehaviour
  else
    let (m, l) := m.alloc (.loc .null true)
    .ok (m.alloc (.pvec comm size starts (.to l) true true))

/-- `hypre_ParVectorSetPartitioningOwner(v, flag)`. -/
def setPartOwner (m : Mem (HCell α)) (v : Nat) (flag : Bool) : Res (Mem (HCell α)) := do
  match ← m.get v with
  | .pvec c s st l od _ => m.put v (.pvec c s st l od flag)
  | _ => .error .undefinedBehaviour

/-- `hypre_ParVectorSetDataOwner(v, flag)`. -/
def setDataOwner (m : Mem (HCell α)) (v : Nat) (flag : Bool) : Res (Mem (HCell α)) := do
  match ← m.get v with
  | .pvec c s st l _ op => m.put v (.pvec c s st l flag op)
  | _ => .error .undefinedBehaviour

/-- `hypre_ParVectorLocalVector(v)`. -/
def localVec (m : Mem (HCell α)) (v : Nat) : Res Nat := do
  match ← m.get v with
  | .pvec _ _ _ l _ _ => deref l
  | _ => .error .undefinedBehaviour

/-- `hypre_SeqVectorSetDataOwner(hypre_ParVectorLocalVector(v), flag)`. -/
def setSeqOwner (m : Mem (HCell α)) (v : Nat) (flag : Bool) : Res (Mem (HCell α)) := do
  let l ← localVec m v
  match ← m.get l with
  | .loc d _ => m.put l (.loc d flag)
  | _ => .error .undefinedBehaviour

/-- `hypre_VectorData(hypre_ParVectorLocalVector(v)) = p`. -/
def setData (m : Mem (HCell α)) (v : Nat) (p : CPtr) : Res (Mem (HCell α)) := do
  let l ← localVec m v
  match ← m.get l with
  | .loc _ o => m.put l (.loc p o)
  | _ => .error .undefinedBehaviour

/-- `hypre_ParVectorInitialize(v)`: data of its own, unless there is some. -/
def vecInit (m : Mem (HCell α)) (v : Nat) : Res (Mem (HCell α)) := do
  let l ← localVec m v
  match ← m.get l with
  | .loc .null o =>
    let (m, d) := m.alloc (.reals [])
    m.put l (.loc (.to d) o)
  | .loc _ _ => .ok m
  | _ => .error .undefinedBehaviour

/-- `hypre_SeqVectorDestroy(l)`. -/
def seqDestroy (m : Mem (HCell α)) (l : Nat) : Res (Mem (HCell α)) := do
  match ← m.get l with
  | .loc d o => do
    let m ← if o then tfree m d else .ok m
    m.free l
  | _ => .error .undefinedBehaviour

/-- `hypre_ParVectorDestroy(v)`. -/
def vecDestroy (m : Mem (HCell α)) (v : Nat) : Res (Mem (HCell α)) := do
  match ← m.get v with
  | .pvec _ _ st l od op => do
    let m ← if od then do let l ← deref l; seqDestroy m l else .ok m
    let m ← if op then tfree m st else .ok m
    m.free v
  | _ => .error .undefinedBehaviour

/-! ## Matrices -/

/-- `hypre_ParCSRMatrixCreate`: it owns everything; the sizes of its blocks are those of the share between the first two starts. -/
def matCreate (m : Mem (HCell α)) (comm gr gc : Int) (rowStarts colStarts : CPtr) (colsOffd : Int) : Res (Mem (HCell α) × Nat) :=
  if comm = 0 then .error .undefinedBehaviour
  else do
    let rs ← ints m rowStarts
    let cs ← ints m colStarts
    let r0 ← rd rs 0
    let r1 ← rd rs 1
    let c0 ← rd cs 0
    let c1 ← rd cs 1
    let (m, d) := m.alloc (.csr (r1 - r0) (c1 - c0) .null .null .null .null true)
    let (m, o) := m.alloc (.csr (r1 - r0) colsOffd .null .null .null .null true)
    .ok (m.alloc (.pmat comm gr gc rowStarts colStarts (.to d) (.to o) .null .null true true true))

/-- The three ownership flags of a matrix. -/
def setMatOwner (m : Mem (HCell α)) (A : Nat) (data row col : Bool) : Res (Mem (HCell α)) := do
  match ← m.get A with
  | .pmat c gr gc rs cs d o cm p _ _ _ => m.put A (.pmat c gr gc rs cs d o cm p data row col)
  | _ => .error .undefinedBehaviour

/-- The addresses of the two blocks. -/
def matBlocks (m : Mem (HCell α)) (A : Nat) : Res (Nat × Nat) := do
  match ← m.get A with
  | .pmat _ _ _ _ _ d o _ _ _ _ _ => do
    let d ← deref d
    let o ← deref o
    .ok (d, o)
  | _ => .error .undefinedBehaviour

/-- `owns_data`, `data`, `i` and `j` of a block. -/
def setArrays (m : Mem (HCell α)) (k : Nat) (owns : Bool) (i j data : CPtr) : Res (Mem (HCell α)) := do
  match ← m.get k with
  | .csr r c _ _ _ n _ => m.put k (.csr r c i j data n owns)
  | _ => .error .undefinedBehaviour

/-- `hypre_CSRMatrixSetRownnz(B)`: an array of its own. -/
def setRownnz (m : Mem (HCell α)) (k : Nat) : Res (Mem (HCell α)) := do
  let (m, n) := m.alloc .rownnz
  match ← m.get k with
  | .csr r c i j d _ o => m.put k (.csr r c i j d (.to n) o)
  | _ => .error .undefinedBehaviour

/-- `hypre_ParCSRMatrixColMapOffd(A) = p`. -/
def setColMap (m : Mem (HCell α)) (A : Nat) (p : CPtr) : Res (Mem (HCell α)) := do
  match ← m.get A with
  | .pmat c gr gc rs cs d o _ pk a b e => m.put A (.pmat c gr gc rs cs d o p pk a b e)
  | _ => .error .undefinedBehaviour

/-- The matrix in a block, as hypre sees it. -/
def csrOf (m : Mem (HCell α)) (k : Nat) : Res (Csr α) := do
  match ← m.get k with
  | .csr r c i j d _ _ => do
    let i ← ints m i
    let j ← ints m j
    let d ← reals m d
    .ok ⟨r, c, i, j, d⟩
  | _ => .error .undefinedBehaviour

/-- `hypre_CSRMatrixReorder(B)`: it rearranges `j` and `data` in place; how is a parameter. -/
def reorder (r : Csr α → Csr α) (m : Mem (HCell α)) (k : Nat) : Res (Mem (HCell α)) := do
  match ← m.get k with
  | .csr _ _ _ j d _ _ => do
    let B ← csrOf m k
    let j ← deref j
    let d ← deref d
    let m ← m.put j (.ints (r B).indices)
    m.put d (.reals (r B).data)
  | _ => .error .undefinedBehaviour

/-- `hypre_MatvecCommPkgCreate(A)`: it reads the column map and the starts. -/
def pkgCreate (m : Mem (HCell α)) (A : Nat) : Res (Mem (HCell α)) := do
  let (m, p) := m.alloc .pkg
  match ← m.get A with
  | .pmat c gr gc rs cs d o cm _ a b e => do
    let _ ← ints m rs
    let _ ← ints m cs
    let _ ← ints m cm
    m.put A (.pmat c gr gc rs cs d o cm (.to p) a b e)
  | _ => .error .undefinedBehaviour

/-- `hypre_MatvecCommPkgDestroy(A->comm_pkg)`. -/
def pkgDestroy (m : Mem (HCell α)) (A : Nat) : Res (Mem (HCell α)) := do
  match ← m.get A with
  | .pmat _ _ _ _ _ _ _ _ p _ _ _ => do
    let p ← deref p
    m.free p
  | _ => .error .undefinedBehaviour

/-- `hypre_TFree(B->rownnz)`, which also makes the pointer null. -/
def rownnzFree (m : Mem (HCell α)) (k : Nat) : Res (Mem (HCell α)) := do
  match ← m.get k with
  | .csr r c i j d n o => do
    let m ← tfree m n
    m.put k (.csr r c i j d .null o)
  | _ => .error .undefinedBehaviour

/-- `hypre_CSRMatrixDestroy(B)`. -/
def csrDestroy (m : Mem (HCell α)) (k : Nat) : Res (Mem (HCell α)) := do
  match ← m.get k with
  | .csr _ _ i j d n o => do
    let m ← tfree m i
    let m ← tfree m n
    let m ← if o then do let m ← tfree m d; tfree m j else .ok m
    m.free k
  | _ => .error .undefinedBehaviour

/-- `hypre_ParCSRMatrixDestroy(A)`. -/
def matDestroy (m : Mem (HCell α)) (A : Nat) : Res (Mem (HCell α)) := do
  match ← m.get A with
  | .pmat _ _ _ rs cs d o cm p a b e => do
    let m ← if a then do
        let d ← deref d
        let o ← deref o
        let m ← csrDestroy m d
        let m ← csrDestroy m o
        let m ← tfree m cm
        tfree m p
      else .ok m
    let m ← if b then tfree m rs else .ok m
    let m ← if e then tfree m cs else .ok m
    m.free A
  | _ => .error .undefinedBehaviour

end Hypre

/-! ## ParVector -/

/-- The members of `ParVector` (modules/parlinalgcpp/include/parvector.hpp:89-98) and of the `Vector` it derives from; `data` and `part`
are the addresses of what the `std::vector`s hold.  The global size may be indeterminate. -/
structure ParVecObj where
  data : Nat
  comm : Int
  pvect : CPtr
  part : Nat
  globalSize : Option Int
  deriving DecidableEq

namespace ParVecObj
open Hypre

/-- `HypreDestroy()` (modules/parlinalgcpp/src/parvector.cpp:110-117). -/
def hypreDestroy (m : Mem (HCell α)) (o : ParVecObj) : Res (Mem (HCell α) × ParVecObj) :=
  match o.pvect with
  | .null => .ok (m, o)
  | .to v => do
    let m ← vecDestroy m v
    .ok (m, { o with pvect := .null })
  | _ => .error .undefinedBehaviour

/-- `HypreCreate()` (modules/parlinalgcpp/src/parvector.cpp:94-108). -/
def hypreCreate (m : Mem (HCell α)) (o : ParVecObj) : Res (Mem (HCell α) × ParVecObj) := do
  let (m, o) ← hypreDestroy m o
  match o.globalSize with
  | none => .error .undefinedBehaviour
  | some g => do
    let (m, v) ← vecCreate m o.comm g (.to o.part)
    let m ← setPartOwner m v false
    let m ← setDataOwner m v true
    let m ← setSeqOwner m v false
    let m ← setData m v .outside
    let m ← vecInit m v
    let m ← setData m v (.to o.data)
    .ok (m, { o with pvect := .to v })

/-- The constructors from a communicator (modules/parlinalgcpp/src/parvector.cpp:13-50), with the vector as it has passed the checks. -/
def ofVal (m : Mem (HCell α)) (comm : Int) (v : ParVec α) : Res (Mem (HCell α) × ParVecObj) := do
  let (m, d) := m.alloc (.reals v.data)
  let (m, p) := m.alloc (.ints v.part)
  hypreCreate m ⟨d, comm, .null, p, some v.globalSize⟩

/-- What `ParVector` is constructed from. -/
inductive Args (α : Type)
  /-- `ParVector()` -/
  | none
  /-- `ParVector(comm, val, part)` -/
  | val (comm : Int) (val : α) (part : List Int)
  /-- `ParVector(comm, vect, part)` -/
  | vect (comm : Int) (vect : List α) (part : List Int)

/-- Construction (modules/parlinalgcpp/src/parvector.cpp:8-50); the default constructor does not set the global size. -/
def make (m : Mem (HCell α)) : Args α → Res (Mem (HCell α) × ParVecObj)
  | .none =>
    let (m, d) := m.alloc (.reals [])
    let (m, p) := m.alloc (.ints [])
    .ok (m, ⟨d, 0, .null, p, Option.none⟩)
  | .val comm val part => do
    let v ← ParVec.ofVal val part
    ofVal m comm v
  | .vect comm vect part => do
    let v ← ParVec.ofVect vect part
    ofVal m comm v

/-- `ParVector(const ParVector&)` (modules/parlinalgcpp/src/parvector.cpp:54-59). -/
def copy (m : Mem (HCell α)) (o : ParVecObj) : Res (Mem (HCell α) × ParVecObj) := do
  let data ← reals m (.to o.data)
  let (m, d) := m.alloc (.reals data)
  let part ← ints m (.to o.part)
  let (m, p) := m.alloc (.ints part)
  match o.globalSize with
  | none => .error .undefinedBehaviour
  | some g => hypreCreate m ⟨d, o.comm, .null, p, some g⟩

/-- The new object in `ParVector(ParVector&&)` (modules/parlinalgcpp/src/parvector.cpp:61-65). -/
def blank (m : Mem (HCell α)) : Mem (HCell α) × ParVecObj :=
  let (m, d) := m.alloc (.reals [])
  let (m, p) := m.alloc (.ints [])
  (m, ⟨d, 0, .null, p, some 0⟩)

/-- `swap(ParVector&, ParVector&)` (modules/parlinalgcpp/src/parvector.cpp:74-82). -/
def swap (a b : ParVecObj) : ParVecObj × ParVecObj :=
  let (a, b) := ({ a with data := b.data }, { b with data := a.data })
  let (a, b) := ({ a with comm := b.comm }, { b with comm := a.comm })
  let (a, b) := ({ a with pvect := b.pvect }, { b with pvect := a.pvect })
  let (a, b) := ({ a with part := b.part }, { b with part := a.part })
  ({ a with globalSize := b.globalSize }, { b with globalSize := a.globalSize })

/-- `~ParVector()` (modules/parlinalgcpp/src/parvector.cpp:89-92), then the members. -/
def destroy (m : Mem (HCell α)) (o : ParVecObj) : Res (Mem (HCell α)) := do
  let (m, o) ← hypreDestroy m o
  let m ← m.free o.part
  m.free o.data

/-- `v[i] = x`, and the other assignments to elements. -/
def update (m : Mem (HCell α)) (o : ParVecObj) (u : Int × α) : Res (Mem (HCell α)) := do
  let data ← reals m (.to o.data)
  let data ← vwr data u.1 u.2
  m.put o.data (.reals data)

/-- The class. -/
def cls : Cls (HCell α) ParVecObj (Args α) (Int × α) := ⟨make, copy, blank, swap, destroy, update⟩

/-- The communicator, partition, global size and entries that hypre finds in `pvect_`. -/
def seen (m : Mem (HCell α)) (o : ParVecObj) : Res (Int × ParVec α) := do
  let v ← deref o.pvect
  match ← m.get v with
  | .pvec comm size st l _ _ => do
    let part ← ints m st
    let l ← deref l
    match ← m.get l with
    | .loc d _ => do
      let data ← reals m d
      .ok (comm, ⟨data, part, size⟩)
    | _ => .error .undefinedBehaviour
  | _ => .error .undefinedBehaviour

/-- The entries and global size the object itself has. -/
def own (m : Mem (HCell α)) (o : ParVecObj) : Res (Int × ParVec α) := do
  let data ← reals m (.to o.data)
  let part ← ints m (.to o.part)
  match o.globalSize with
  | none => .error .undefinedBehaviour
  | some g => .ok (o.comm, ⟨data, part, g⟩)

/-- `SetSize(n)` (include/vector.hpp:176-187), which `ParVector` inherits, when the storage must be enlarged: the elements move to new
storage. -/
def grow [Zero α] (m : Mem (HCell α)) (o : ParVecObj) (n : Nat) : Res (Mem (HCell α) × ParVecObj) := do
  let data ← reals m (.to o.data)
  let (m, d) := m.alloc (.reals (Cpp.resize data n 0))
  let m ← m.free o.data
  .ok (m, { o with data := d })

end ParVecObj

/-! ## ParOperator -/

/-- The members of `ParOperator` (modules/parlinalgcpp/include/paroperator.hpp:88-94) and of `Operator` (include/operator.hpp:102-103). -/
structure ParOpObj where
  rows : Int
  cols : Int
  comm : Int
  myid : Int
  rowStarts : Nat
  colStarts : Nat
  x : CPtr
  b : CPtr
  deriving DecidableEq

namespace ParOpObj
open Hypre

/-- `InitVector(vect, starts)` (modules/parlinalgcpp/src/paroperator.cpp:56-67): the new vector. -/
def initVector (m : Mem (HCell α)) (comm : Int) (starts : Nat) : Res (Mem (HCell α) × Nat) := do
  let l ← ints m (.to starts)
  cassert (l.length ≥ 3)
  let g ← rd l 2
  let (m, v) ← vecCreate m comm g (.to starts)
  let m ← setPartOwner m v false
  let m ← setDataOwner m v true
  let m ← setSeqOwner m v false
  let m ← setData m v .outside
  let m ← vecInit m v
  .ok (m, v)

/-- `DestroyVector(vect)` (modules/parlinalgcpp/src/paroperator.cpp:69-76); the pointer becomes null. -/
def destroyVector (m : Mem (HCell α)) : CPtr → Res (Mem (HCell α))
  | .null => .ok m
  | .to v => vecDestroy m v
  | _ => .error .undefinedBehaviour

/-- `HypreCreate()` (modules/parlinalgcpp/src/paroperator.cpp:48-54); the rank is a member already. -/
def hypreCreate (m : Mem (HCell α)) (o : ParOpObj) : Res (Mem (HCell α) × ParOpObj) := do
  let (m, x) ← initVector m o.comm o.rowStarts
  let (m, b) ← initVector m o.comm o.colStarts
  .ok (m, { o with x := .to x, b := .to b })

/-- `ParOperator()` (modules/parlinalgcpp/src/paroperator.cpp:8-12). -/
def blank (m : Mem (HCell α)) : Mem (HCell α) × ParOpObj :=
  let (m, r) := m.alloc (.ints [])
  let (m, c) := m.alloc (.ints [])
  (m, ⟨0, 0, 0, -1, r, c, .null, .null⟩)

/-- `ParOperator(comm, row_starts, col_starts)` (modules/parlinalgcpp/src/paroperator.cpp:26-35, src/operator.cpp:18-23); `rank` is what
`MPI_Comm_rank` says. -/
def make (m : Mem (HCell α)) (comm rank : Int) (rowStarts colStarts : List Int) : Res (Mem (HCell α) × ParOpObj) := do
  let r1 ← rd rowStarts 1
  let r0 ← rd rowStarts 0
  let c1 ← rd colStarts 1
  let c0 ← rd colStarts 0
  cassert (r1 - r0 ≥ 0)
  cassert (c1 - c0 ≥ 0)
  let (m, r) := m.alloc (.ints rowStarts)
  let (m, c) := m.alloc (.ints colStarts)
  cassert (rowStarts.length ≥ 3)
  cassert (colStarts.length ≥ 3)
  hypreCreate m ⟨r1 - r0, c1 - c0, comm, rank, r, c, .null, .null⟩

/-- `ParOperator(const ParOperator&)` (modules/parlinalgcpp/src/paroperator.cpp:37-46, src/operator.cpp:25-30). -/
def copy (m : Mem (HCell α)) (o : ParOpObj) : Res (Mem (HCell α) × ParOpObj) := do
  cassert (o.rows ≥ 0)
  cassert (o.cols ≥ 0)
  let rs ← ints m (.to o.rowStarts)
  let (m, r) := m.alloc (.ints rs)
  let cs ← ints m (.to o.colStarts)
  let (m, c) := m.alloc (.ints cs)
  let p : ParOpObj := ⟨o.rows, o.cols, o.comm, o.myid, r, c, .null, .null⟩
  if o.comm > 0 ∧ o.myid ≥ 0 then hypreCreate m p else .ok (m, p)

/-- `swap(ParOperator&, ParOperator&)` (modules/parlinalgcpp/src/paroperator.cpp:89-99, src/operator.cpp:53-57). -/
def swap (a b : ParOpObj) : ParOpObj × ParOpObj :=
  let (a, b) := ({ a with rows := b.rows }, { b with rows := a.rows })
  let (a, b) := ({ a with cols := b.cols }, { b with cols := a.cols })
  let (a, b) := ({ a with comm := b.comm }, { b with comm := a.comm })
  let (a, b) := ({ a with myid := b.myid }, { b with myid := a.myid })
  let (a, b) := ({ a with rowStarts := b.rowStarts }, { b with rowStarts := a.rowStarts })
  let (a, b) := ({ a with colStarts := b.colStarts }, { b with colStarts := a.colStarts })
  let (a, b) := ({ a with x := b.x }, { b with x := a.x })
  ({ a with b := b.b }, { b with b := a.b })

/-- `~ParOperator()` (modules/parlinalgcpp/src/paroperator.cpp:78-87), then the members. -/
def destroy (m : Mem (HCell α)) (o : ParOpObj) : Res (Mem (HCell α)) := do
  let m ← destroyVector m o.x
  let m ← destroyVector m o.b
  let m ← m.free o.colStarts
  m.free o.rowStarts

/-- `GlobalRows()` or `GlobalCols()` (modules/parlinalgcpp/src/paroperator.cpp:101-123) from the starts. -/
def globalSize (starts : List Int) : Int := if starts.length ≥ 3 then starts.getD 2 0 else 0

end ParOpObj

/-! ## ParMatrix -/

/-- A `SparseMatrix` member: its sizes and the addresses of its arrays (include/sparsematrix.hpp:439-441). -/
structure CsrObj where
  rows : Int
  cols : Int
  indptr : Nat
  indices : Nat
  data : Nat
  deriving DecidableEq

namespace CsrObj
open Hypre

/-- A matrix with storage of its own. -/
def new (m : Mem (HCell α)) (A : Csr α) : Mem (HCell α) × CsrObj :=
  let (m, i) := m.alloc (.ints A.indptr)
  let (m, j) := m.alloc (.ints A.indices)
  let (m, d) := m.alloc (.reals A.data)
  (m, ⟨A.rows, A.cols, i, j, d⟩)

/-- The matrix. -/
def val (m : Mem (HCell α)) (o : CsrObj) : Res (Csr α) := do
  let i ← ints m (.to o.indptr)
  let j ← ints m (.to o.indices)
  let d ← reals m (.to o.data)
  .ok ⟨o.rows, o.cols, i, j, d⟩

/-- `SparseMatrix(const SparseMatrix&)`. -/
def copy (m : Mem (HCell α)) (o : CsrObj) : Res (Mem (HCell α) × CsrObj) := do
  let A ← val m o
  .ok (new m A)

/-- `swap(SparseMatrix&, SparseMatrix&)` (include/sparsematrix.hpp:515-523). -/
def swap (a b : CsrObj) : CsrObj × CsrObj :=
  let (a, b) := ({ a with rows := b.rows }, { b with rows := a.rows })
  let (a, b) := ({ a with cols := b.cols }, { b with cols := a.cols })
  let (a, b) := ({ a with indptr := b.indptr }, { b with indptr := a.indptr })
  let (a, b) := ({ a with indices := b.indices }, { b with indices := a.indices })
  ({ a with data := b.data }, { b with data := a.data })

/-- The end of its storage. -/
def destroy (m : Mem (HCell α)) (o : CsrObj) : Res (Mem (HCell α)) := do
  let m ← m.free o.data
  let m ← m.free o.indices
  m.free o.indptr

end CsrObj

/-- The members of `ParMatrix` (modules/parlinalgcpp/include/parmatrix.hpp:284-289) and the `ParOperator` it derives from. -/
structure ParMatObj where
  op : ParOpObj
  A : CPtr
  diag : CsrObj
  offd : CsrObj
  colMap : Nat
  deriving DecidableEq

namespace ParMatObj
open Hypre

/-- `HypreDestroy()` (modules/parlinalgcpp/src/parmatrix.cpp:190-202); the pointer becomes null. -/
def hypreDestroy (m : Mem (HCell α)) (o : ParMatObj) : Res (Mem (HCell α) × ParMatObj) :=
  match o.A with
  | .null => .ok (m, o)
  | .to A => do
    let m ← pkgDestroy m A
    let (d, f) ← matBlocks m A
    let m ← rownnzFree m f
    let m ← m.free d
    let m ← m.free f
    let m ← matDestroy m A
    .ok (m, { o with A := .null })
  | _ => .error .undefinedBehaviour

/-- `HypreCreate()` (modules/parlinalgcpp/src/parmatrix.cpp:157-188). -/
def hypreCreate (r : Csr α → Csr α) (m : Mem (HCell α)) (o : ParMatObj) : Res (Mem (HCell α) × ParMatObj) := do
  let (m, o) ← hypreDestroy m o
  let rs ← ints m (.to o.op.rowStarts)
  let cs ← ints m (.to o.op.colStarts)
  let (m, A) ← matCreate m o.op.comm (ParOpObj.globalSize rs) (ParOpObj.globalSize cs) (.to o.op.rowStarts) (.to o.op.colStarts) o.offd.cols
  let m ← setMatOwner m A false false false
  let (d, f) ← matBlocks m A
  let m ← setArrays m d false (.to o.diag.indptr) (.to o.diag.indices) (.to o.diag.data)
  let m ← setArrays m f false (.to o.offd.indptr) (.to o.offd.indices) (.to o.offd.data)
  let m ← setRownnz m f
  let m ← setColMap m A (.to o.colMap)
  let m ← reorder r m d
  let m ← pkgCreate m A
  .ok (m, { o with A := .to A })

/-- `ParMatrix()` (modules/parlinalgcpp/src/parmatrix.cpp:8-12); also the new object in `ParMatrix(ParMatrix&&)` (148-152). -/
def blank (m : Mem (HCell α)) : Mem (HCell α) × ParMatObj :=
  let (m, p) := ParOpObj.blank m
  let (m, d) := CsrObj.new m Csr.empty
  let (m, f) := CsrObj.new m Csr.empty
  let (m, c) := m.alloc (.ints [])
  (m, ⟨p, .null, d, f, c⟩)

/-- What `ParMatrix` is constructed from. -/
inductive Args (α : Type)
  /-- `ParMatrix()` -/
  | none
  /-- `ParMatrix(comm, row_starts, col_starts, diag, offd, col_map)`, on the process with this rank -/
  | all (comm rank : Int) (rowStarts colStarts : List Int) (diag offd : Csr α) (colMap : List Int)

/-- Construction (modules/parlinalgcpp/src/parmatrix.cpp:8-12, 58-114); the blocks are put in place after the checks of `Init()`. -/
def make (r : Csr α → Csr α) (m : Mem (HCell α)) : Args α → Res (Mem (HCell α) × ParMatObj)
  | .none => .ok (blank m)
  | .all comm rank rowStarts colStarts diag offd colMap => do
    let (m, p) ← ParOpObj.make m comm rank rowStarts colStarts
    let M ← ParMat.init (fun A => A) ⟨p.rows, p.cols, rowStarts, colStarts, diag, offd, colMap⟩
    let (m, d) := CsrObj.new m M.diag
    let (m, f) := CsrObj.new m M.offd
    let (m, c) := m.alloc (.ints colMap)
    hypreCreate r m ⟨{ p with rows := M.rows, cols := M.cols }, .null, d, f, c⟩

/-- `ParMatrix(const ParMatrix&)` (modules/parlinalgcpp/src/parmatrix.cpp:122-131). -/
def copy (r : Csr α → Csr α) (m : Mem (HCell α)) (o : ParMatObj) : Res (Mem (HCell α) × ParMatObj) := do
  let (m, p) ← ParOpObj.copy m o.op
  let (m, d) ← CsrObj.copy m o.diag
  let (m, f) ← CsrObj.copy m o.offd
  let cm ← ints m (.to o.colMap)
  let (m, c) := m.alloc (.ints cm)
  if o.A = .null then .ok (m, ⟨p, .null, d, f, c⟩) else hypreCreate r m ⟨p, .null, d, f, c⟩

/-- `swap(ParMatrix&, ParMatrix&)` (modules/parlinalgcpp/src/parmatrix.cpp:133-143). -/
def swap (a b : ParMatObj) : ParMatObj × ParMatObj :=
  let (p, q) := ParOpObj.swap a.op b.op
  let (a, b) := ({ a with op := p }, { b with op := q })
  let (a, b) := ({ a with A := b.A }, { b with A := a.A })
  let (a, b) := ({ a with colMap := b.colMap }, { b with colMap := a.colMap })
  let (d, e) := CsrObj.swap a.diag b.diag
  let (a, b) := ({ a with diag := d }, { b with diag := e })
  let (d, e) := CsrObj.swap a.offd b.offd
  ({ a with offd := d }, { b with offd := e })

/-- `~ParMatrix()` (modules/parlinalgcpp/src/parmatrix.cpp:117-120), then the members, then the base. -/
def destroy (m : Mem (HCell α)) (o : ParMatObj) : Res (Mem (HCell α)) := do
  let (m, o) ← hypreDestroy m o
  let m ← m.free o.colMap
  let m ← CsrObj.destroy m o.offd
  let m ← CsrObj.destroy m o.diag
  ParOpObj.destroy m o.op

/-- The update of one block, in its array. -/
def updBlock (f : α → α) (m : Mem (HCell α)) (o : CsrObj) : Res (Mem (HCell α)) := do
  let d ← reals m (.to o.data)
  m.put o.data (.reals (d.map f))

/-- `operator*=(double)` (modules/parlinalgcpp/src/parmatrix.cpp:302-308, include/sparsematrix.hpp:1170-1180). -/
def update [Mul α] (m : Mem (HCell α)) (o : ParMatObj) (c : α) : Res (Mem (HCell α)) := do
  let m ← updBlock (fun a => a * c) m o.diag
  updBlock (fun a => a * c) m o.offd

/-- The class. -/
def cls [Mul α] (r : Csr α → Csr α) : Cls (HCell α) ParMatObj (Args α) α := ⟨make r, copy r, blank, swap, destroy, update⟩

/-- The communicator and the matrix that hypre finds in `A_`. -/
def seen (m : Mem (HCell α)) (o : ParMatObj) : Res (Int × ParMat α) := do
  let A ← deref o.A
  match ← m.get A with
  | .pmat comm _ _ rs cs d f cm _ _ _ _ => do
    let rs ← ints m rs
    let cs ← ints m cs
    let cm ← ints m cm
    let d ← deref d
    let f ← deref f
    let D ← csrOf m d
    let F ← csrOf m f
    .ok (comm, ⟨D.rows, D.cols, rs, cs, D, F, cm⟩)
  | _ => .error .undefinedBehaviour

/-- `Mult(input, output)` on views (modules/parlinalgcpp/src/parmatrix.cpp:212-227): the arrays of the caller go into `x_` and `b_`; the
matrix that hypre multiplies with. -/
def mult (m : Mem (HCell α)) (o : ParMatObj) : Res (Mem (HCell α) × ParMat α) := do
  let x ← deref o.op.x
  let m ← setData m x .outside
  let b ← deref o.op.b
  let m ← setData m b .outside
  let M ← seen m o
  .ok (m, M.2)

end ParMatObj
end Linalg
