import Verif.Cpp.Basic

/-!
# Programs that construct, copy, move, assign, swap and destroy objects

Objects that own things through pointers live over a memory of cells.  An address is never used again after it is given back.  What a
class does is collected in `Cls`; the statements below run any such class the way C++ does: `operator=` takes its argument by value, so
the argument is copied or moved into a parameter, swapped, and the parameter destroyed.
-/

namespace Linalg
open Cpp

/-- Cells by address; `none` after a cell is given back. -/
abbrev Mem (C : Type) := List (Option C)

namespace Mem
variable {C : Type}

/-- A new cell. -/
def alloc (m : Mem C) (c : C) : Mem C × Nat := (m ++ [some c], m.length)

/-- The cell at an address. -/
def get (m : Mem C) (k : Nat) : Res C :=
  match m[k]? with
  | some (some c) => .ok c
  | _ => .error .undefinedBehaviour

/-- Overwrite a cell. -/
def put (m : Mem C) (k : Nat) (c : C) : Res (Mem C) := do
  let _ ← m.get k
  .ok (m.set k (some c))

/-- Give a cell back. -/
def free (m : Mem C) (k : Nat) : Res (Mem C) := do
  let _ ← m.get k
  .ok (m.set k none)

/-- Whether there is a cell at an address. -/
def Live (m : Mem C) (k : Nat) : Prop := ∃ c, m[k]? = some (some c)

end Mem

/-- A class: its objects are `O`, over cells `C`; it is constructed from `A`, and `U` are the updates in place. -/
structure Cls (C O A U : Type) where
  /-- constructors other than copying and moving -/
  make : Mem C → A → Res (Mem C × O)
  /-- the copy constructor -/
  copy : Mem C → O → Res (Mem C × O)
  /-- the new object in the move constructor, before it swaps with its argument -/
  blank : Mem C → Mem C × O
  /-- `swap(lhs, rhs)`: the two objects afterwards -/
  swap : O → O → O × O
  /-- the destructor -/
  destroy : Mem C → O → Res (Mem C)
  /-- updates in place -/
  update : Mem C → O → U → Res (Mem C)

/-- What a program does with its objects; they are named by the order of their construction. -/
inductive LifeStmt (A U : Type)
  /-- construct `T(a)` -/
  | make (a : A)
  /-- `T(x)` -/
  | copy (i : Nat)
  /-- `T(std::move(x))` -/
  | move (i : Nat)
  /-- `x = y` -/
  | assign (i j : Nat)
  /-- `x = std::move(y)` -/
  | assignMove (i j : Nat)
  /-- `swap(x, y)` -/
  | swap (i j : Nat)
  /-- the end of the life of `x` -/
  | destroy (i : Nat)
  /-- an update in place -/
  | update (i : Nat) (u : U)

/-- The memory and the objects a program has made; `none` after destruction. -/
structure LifeStore (C O : Type) where
  mem : Mem C
  objs : List (Option O)

namespace LifeStore
variable {C O A U : Type}

/-- The object with a name; there must be one. -/
def obj (w : LifeStore C O) (i : Nat) : Res O :=
  match w.objs[i]? with
  | some (some o) => .ok o
  | _ => .error .undefinedBehaviour

/-- One statement. -/
def step (K : Cls C O A U) (w : LifeStore C O) : LifeStmt A U → Res (LifeStore C O)
  | .make a => do
    let (m, o) ← K.make w.mem a
    .ok ⟨m, w.objs ++ [some o]⟩
  | .copy i => do
    let s ← w.obj i
    let (m, o) ← K.copy w.mem s
    .ok ⟨m, w.objs ++ [some o]⟩
  | .move i => do
    let s ← w.obj i
    let (m, o) := K.blank w.mem
    let (o, s) := K.swap o s
    .ok ⟨m, w.objs.set i (some s) ++ [some o]⟩
  | .assign i j => do
    let s ← w.obj i
    let t ← w.obj j
    let (m, p) ← K.copy w.mem t
    let (s, p) := K.swap s p
    let m ← K.destroy m p
    .ok ⟨m, w.objs.set i (some s)⟩
  | .assignMove i j => do
    let _ ← w.obj i
    let t ← w.obj j
    let (m, p) := K.blank w.mem
    let (p, t) := K.swap p t
    let objs := w.objs.set j (some t)
    let s ← LifeStore.obj ⟨m, objs⟩ i
    let (s, p) := K.swap s p
    let m ← K.destroy m p
    .ok ⟨m, objs.set i (some s)⟩
  | .swap i j => do
    let s ← w.obj i
    let t ← w.obj j
    let (s, t) := K.swap s t
    .ok ⟨w.mem, (w.objs.set j (some t)).set i (some s)⟩
  | .destroy i => do
    let s ← w.obj i
    let m ← K.destroy w.mem s
    .ok ⟨m, w.objs.set i none⟩
  | .update i u => do
    let s ← w.obj i
    let m ← K.update w.mem s u
    .ok ⟨m, w.objs⟩

/-- A program. -/
def run (K : Cls C O A U) (ops : List (LifeStmt A U)) (w : LifeStore C O) : Res (LifeStore C O) :=
  ops.foldlM (step K) w

end LifeStore
end Linalg
