import Verif.Spec.View
import Verif.Spec.Csr
import Verif.Spec.Coo
import Verif.Spec.Dense
import Verif.Spec.Block

/-! # What it means that a function on memory does what a function on lists does -/

namespace Linalg
open Cpp

namespace View
variable {α : Type} [Zero α]

/-- The elements a view shows. -/
def elems (v : View) (m : List α) : List α := (iota v.size.toNat).map (fun i => vecAt m (v.off + i))

/-- `m'` is `m` with the elements of the view replaced by `z`. -/
structure Wrote (v : View) (m m' z : List α) : Prop where
  length_eq : m'.length = m.length
  elems_eq : v.elems m' = z
  rest_eq : ∀ p, ¬ v.Has p → vecAt m' p = vecAt m p

/-- Two views share no position. -/
def Apart (x y : View) : Prop := ∀ p, ¬ (x.Has p ∧ y.Has p)

/-- On memory `m` the function returned `r'`; on lists it returned `r`.  The same error, or the same elements at the place of the view and
nothing else changed. -/
def Mirrors (v : View) (m : List α) (r r' : Res (List α)) : Prop :=
  match r with
  | .ok z => ∃ m', r' = .ok m' ∧ v.Wrote m m' z
  | .error e => r' = .error e

end View
end Linalg
