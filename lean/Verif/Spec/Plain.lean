import Verif.Spec.Life
import Verif.Model.Block

/-!
# Values without shared parts

A copy is the same value again, a move leaves `blank` behind; copying fails if `copies` says so.
-/

namespace Linalg
open Cpp

/-- A class of values with given constructors and member functions. -/
def plainVals {V A U : Type} (make : A → Res V) (copies : V → Bool) (blank : V) (update : V → U → Res V) : LifeVals V A U where
  make := make
  copy v := if copies v then .ok v else .error .assertFail
  blank := blank
  destroy _ := .ok ()
  update := update

/-- Neither size is negative. -/
def sized (rows cols : Int) : Bool := decide (0 ≤ rows) && decide (0 ≤ cols)

/-- The two results are the same failure, or belong together. -/
def Outcome {O V : Type} (R : O → V → Prop) (r : Res O) (s : Res V) : Prop :=
  match r, s with
  | .ok o, .ok v => R o v
  | .error e, .error f => e = f
  | _, _ => False

/-- The two results are the same failure, or lists of objects and of values that belong together. -/
def Agree {O V : Type} (R : O → V → Prop) (r : Res (List (Option O))) (s : Res (List (Option V))) : Prop :=
  match r, s with
  | .ok w, .ok vs => w.length = vs.length ∧ ∀ i : Nat, match w[i]?.join, vs[i]?.join with
    | some o, some v => R o v
    | none, none => True
    | _, _ => False
  | .error e, .error f => e = f
  | _, _ => False

/-- The statement is an assignment. -/
def LifeStmt.assigns {A U : Type} : LifeStmt A U → Bool
  | .assign _ _ => true
  | .assignMove _ _ => true
  | _ => false

/-- The same block operator, whatever its scratch vector `tmp_` holds. -/
def BlockOp.Same {α : Type} (o v : BlockOp α) : Prop := { o with tmp := [] } = { v with tmp := [] }

/-- The block offsets run from `0` to the length of the vector and never go down. -/
def Tiles {α : Type} (elems : List α) (offsets : List Int) : Prop :=
  offsets.head? = some 0 ∧ offsets.getLast? = some (elems.length : Int) ∧ offsets.Pairwise (· ≤ ·)

end Linalg
