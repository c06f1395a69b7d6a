import Verif.Model.View
import Verif.Spec.Vec

/-!
# What views mean
-/

namespace Linalg
open Cpp

namespace View

/-- The view lies inside the memory. -/
structure InMem {α : Type} (v : View) (m : List α) : Prop where
  off_nonneg : 0 ≤ v.off
  size_nonneg : 0 ≤ v.size
  fits : v.off + v.size ≤ m.length

/-- Position `p` of the memory belongs to the view. -/
def Has (v : View) (p : Int) : Prop := v.off ≤ p ∧ p < v.off + v.size

/-- Membership can be checked. -/
instance (v : View) (p : Int) : Decidable (v.Has p) := by unfold Has; exact inferInstance

/-- Two views start at the same place or share no position. -/
def SameOrApart (x y : View) : Prop := x.off = y.off ∨ ∀ p, ¬ (x.Has p ∧ y.Has p)

end View
end Linalg
