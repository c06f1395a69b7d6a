import Verif.Model.Own

/-!
# Vectors as values

What a program with vectors means when every vector is just the list of its elements.
-/

namespace Linalg
open Cpp

variable {α : Type}

namespace Vals

/-- The elements of the vector with a name. -/
def vec (s : List (Option (List α))) (i : Nat) : Res (List α) :=
  match s[i]? with
  | some (some l) => .ok l
  | _ => .error .undefinedBehaviour

/-- `n` elements from `off`. -/
def slice (l : List α) (off n : Int) : Res (List α) :=
  if n < 0 then .error .assertFail
  else if 0 ≤ off ∧ off + n ≤ l.length then .ok ((l.drop off.toNat).take n.toNat)
  else .error .outOfBounds

/-- What each statement does to the values.  Copies are independent, a moved-from vector is empty, move assignment swaps. -/
def step [Zero α] (s : List (Option (List α))) : Stmt α → Res (List (Option (List α)))
  | .make n x => if n < 0 then .error .threw else .ok (s ++ [some (List.replicate n.toNat x)])
  | .std l => .ok (s ++ [some l])
  | .ofView i off n => do
    let l ← vec s i
    let r ← slice l off n
    .ok (s ++ [some r])
  | .copy i => do
    let l ← vec s i
    .ok (s ++ [some l])
  | .move i => do
    let l ← vec s i
    .ok (s.set i (some []) ++ [some l])
  | .setSize i n x => do
    let l ← vec s i
    if n < 0 then .error .assertFail
    else .ok (s.set i (some (l.take n.toNat ++ List.replicate (n.toNat - l.length) x)))
  | .assign i j => do
    let _ ← vec s i
    let l ← vec s j
    .ok (s.set i (some l))
  | .assignView i j off n => do
    let _ ← vec s i
    let l ← vec s j
    let r ← slice l off n
    -- a vector cannot be assigned a part of itself that does not begin at its beginning
    if i = j ∧ 0 < off ∧ 0 < n then .error .outOfBounds else .ok (s.set i (some r))
  | .assignMut i j off n => do
    let l ← vec s i
    let r ← vec s j
    let r ← slice r off n
    -- the sizes must agree: the vector is not resized
    if r.length = l.length then .ok (s.set i (some r)) else .error .assertFail
  | .assignMove i j => do
    let l ← vec s i
    let r ← vec s j
    .ok ((s.set j (some l)).set i (some r))
  | .swap i j => do
    let l ← vec s i
    let r ← vec s j
    .ok ((s.set j (some l)).set i (some r))
  | .destroy i => do
    let _ ← vec s i
    .ok (s.set i none)
  | .put i k x => do
    let l ← vec s i
    if l.length ≤ k then .error .assertFail
    else if k < 0 then .error .outOfBounds
    else .ok (s.set i (some (l.set k.toNat x)))
  | .fill i x => do
    let l ← vec s i
    .ok (s.set i (some (l.map (fun _ => x))))
  | .update i f j => do
    let l ← vec s i
    let r ← vec s j
    if l.length = r.length then .ok (s.set i (some (l.zipWith f r))) else .error .assertFail

/-- A program on values. -/
def run [Zero α] (ops : List (Stmt α)) (s : List (Option (List α))) : Res (List (Option (List α))) := ops.foldlM step s

end Vals
end Linalg
