import Mathlib.Algebra.Group.Defs

/-!
# Sums in the order in which they are added up

Nothing is asked of the operations: they may be rounded, so that the order matters.
-/

namespace Linalg
variable {α : Type}

/-- The sum that starts with zero and adds the elements from left to right. -/
def addUp [Zero α] [Add α] (l : List α) : α := l.foldl (fun s a => s + a) 0

/-- The sum that starts with the first element and adds the others from left to right. -/
def addOn [Zero α] [Add α] : List α → α
  | [] => 0
  | a :: l => l.foldl (fun s b => s + b) a

end Linalg
