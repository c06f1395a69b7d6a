import Verif.Cpp.Basic

/-!
# What a vector means
-/

namespace Linalg
open Cpp

/-- `y` has `n` elements and reading element `i` returns `f i`, for every `i` in range. -/
structure VecIs {α : Type} (y : List α) (n : Int) (f : Int → α) : Prop where
  length_eq : (y.length : Int) = n
  get_eq : ∀ i, 0 ≤ i → i < n → rd y i = .ok (f i)

end Linalg
