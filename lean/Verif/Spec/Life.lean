import Verif.Model.Life

/-!
# Objects as values

What programs that construct, copy, move, assign, swap and destroy mean if objects are values and nothing is shared.
-/

namespace Linalg
open Cpp

/-- A class of values. -/
structure LifeVals (V A U : Type) where
  make : A → Res V
  /-- what copying gives -/
  copy : V → Res V
  /-- what is left behind by moving -/
  blank : V
  /-- whether destruction goes well -/
  destroy : V → Res Unit
  update : V → U → Res V

namespace LifeVals
variable {V A U : Type}

/-- The value with a name. -/
def get (vs : List (Option V)) (i : Nat) : Res V :=
  match vs[i]? with
  | some (some v) => .ok v
  | _ => .error .undefinedBehaviour

/-- One statement on values. -/
def step (S : LifeVals V A U) (vs : List (Option V)) : LifeStmt A U → Res (List (Option V))
  | .make a => do
    let v ← S.make a
    .ok (vs ++ [some v])
  | .copy i => do
    let v ← get vs i
    let v ← S.copy v
    .ok (vs ++ [some v])
  | .move i => do
    let v ← get vs i
    .ok (vs.set i (some S.blank) ++ [some v])
  | .assign i j => do
    let old ← get vs i
    let v ← get vs j
    let v ← S.copy v
    S.destroy old
    .ok (vs.set i (some v))
  | .assignMove i j => do
    let _ ← get vs i
    let v ← get vs j
    let vs := vs.set j (some S.blank)
    let old ← get vs i
    S.destroy old
    .ok (vs.set i (some v))
  | .swap i j => do
    let v ← get vs i
    let u ← get vs j
    .ok ((vs.set j (some v)).set i (some u))
  | .destroy i => do
    let v ← get vs i
    S.destroy v
    .ok (vs.set i none)
  | .update i u => do
    let v ← get vs i
    let v ← S.update v u
    .ok (vs.set i (some v))

/-- A program on values. -/
def run (S : LifeVals V A U) (ops : List (LifeStmt A U)) (vs : List (Option V)) : Res (List (Option V)) :=
  ops.foldlM (step S) vs

end LifeVals

namespace LifeStore
variable {C O V : Type}

/-- The objects stand for the values; each owns its own cells, and no other cells are left.  `R m o v s`: in the memory `m` the object
`o` stands for `v`, with the cells at the addresses `s`. -/
def Holds (R : Mem C → O → V → List Nat → Prop) (w : LifeStore C O) (vs : List (Option V)) : Prop :=
  w.objs.length = vs.length ∧ ∃ own : Nat → List Nat,
    (∀ i : Nat, match w.objs[i]?.join, vs[i]?.join with
      | some o, some v => R w.mem o v (own i) ∧ ∀ k ∈ own i, w.mem.Live k
      | none, none => own i = []
      | _, _ => False) ∧
    (∀ i j k : Nat, k ∈ own i → k ∈ own j → i = j) ∧
    ∀ k : Nat, w.mem.Live k → ∃ i, k ∈ own i

/-- Each object shows the value it should have; the objects that are gone are the same. -/
def Shows (R : Mem C → O → V → Prop) (w : LifeStore C O) (vs : List (Option V)) : Prop :=
  w.objs.length = vs.length ∧ ∀ i : Nat, match w.objs[i]?.join, vs[i]?.join with
    | some o, some v => R w.mem o v
    | none, none => True
    | _, _ => False

/-- Nothing is allocated. -/
def Clean (w : LifeStore C O) : Prop := ∀ k : Nat, ¬ w.mem.Live k

end LifeStore

/-- The program `ops` on objects of the class `K` does what it does on the values `S`: it fails in the same way, or each object shows its
value, and nothing is left allocated once every object is destroyed. -/
def Cls.Follows {C O V A U : Type} (K : Cls C O A U) (S : LifeVals V A U) (P : Mem C → O → V → Prop) (ops : List (LifeStmt A U)) : Prop :=
  match S.run ops [] with
  | .ok vs => ∃ w, LifeStore.run K ops ⟨[], []⟩ = .ok w ∧ w.Shows P vs ∧ ((∀ i : Nat, vs[i]?.join = none) → w.Clean)
  | .error e => LifeStore.run K ops ⟨[], []⟩ = .error e

end Linalg
