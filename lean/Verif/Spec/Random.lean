import Verif.Model.Random
import Verif.Spec.View
import Verif.Spec.Dense

/-!
# What a random number engine promises
-/

namespace Linalg
open Cpp

namespace Rng
variable {σ α : Type}

/-- The state after `k` numbers. -/
def stateAt (R : Rng σ α) (lo hi : α) (e : σ) : Nat → σ
  | 0 => e
  | k + 1 => (R.draw lo hi (R.stateAt lo hi e k)).2

/-- Number `k`, counted from 0. -/
def number (R : Rng σ α) (lo hi : α) (e : σ) (k : Nat) : α := (R.draw lo hi (R.stateAt lo hi e k)).1

/-- The numbers are between the limits. -/
def Within [LE α] (R : Rng σ α) : Prop := ∀ lo hi s, lo ≤ hi → lo ≤ (R.draw lo hi s).1 ∧ (R.draw lo hi s).1 ≤ hi

end Rng
end Linalg
