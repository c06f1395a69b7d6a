/-!
# Outcomes, checked vectors and loops

The vocabulary in which the C++ code is transliterated.  Nothing here is specific to linalgcpp.
-/

namespace Cpp

/-- The ways in which a modelled C++ call can fail to return normally. -/
inductive Err
  /-- a failed `assert` (debug build: the program aborts) -/
  | assertFail
  /-- an access outside a `std::vector` / list / view: undefined behaviour -/
  | outOfBounds
  /-- a division by zero (inf / nan in floating point, undefined for integers) -/
  | divZero
  /-- a C++ exception leaves the function -/
  | threw
  /-- any other undefined behaviour (dereferencing `end()`, reading an uninitialised value) -/
  | undefinedBehaviour
  deriving DecidableEq, Repr

/-- Result of a modelled call. -/
abbrev Res := Except Err

/-- Outcomes can be compared, so concrete runs can be checked by `decide`. -/
instance decEqRes {α : Type} [DecidableEq α] : DecidableEq (Res α)
  | .ok a, .ok b => if h : a = b then isTrue (h ▸ rfl) else isFalse (fun e => h (Except.ok.inj e))
  | .error a, .error b =>
    if h : a = b then isTrue (h ▸ rfl) else isFalse (fun e => h (Except.error.inj e))
  | .ok _, .error _ => isFalse nofun
  | .error _, .ok _ => isFalse nofun

/-- `assert(p)`. -/
def cassert (p : Prop) [Decidable p] : Res Unit :=
  if p then .ok () else .error .assertFail

/-- `linalgcpp_verify(p)`: throws when `p` is false (include/utilities.hpp). -/
def cverify (p : Prop) [Decidable p] : Res Unit :=
  if p then .ok () else .error .threw

variable {α σ : Type}

/-- `v[i]` on a `std::vector`: undefined unless `0 ≤ i < size`. -/
def rd (v : List α) (i : Int) : Res α :=
  if 0 ≤ i then
    match v[i.toNat]? with
    | some x => .ok x
    | none => .error .outOfBounds
  else .error .outOfBounds

/-- `v[i] = x` on a `std::vector`. -/
def wr (v : List α) (i : Int) (x : α) : Res (List α) :=
  if 0 ≤ i ∧ i < v.length then .ok (v.set i.toNat x) else .error .outOfBounds

/-- `v[i]` on a `VectorView`: `assert(i < size_)` (include/vectorview.hpp:319-333), then the raw access. -/
def vrd (v : List α) (i : Int) : Res α := do
  cassert (i < v.length)
  rd v i

/-- `v[i] = x` on a `VectorView`. -/
def vwr (v : List α) (i : Int) (x : α) : Res (List α) := do
  cassert (i < v.length)
  wr v i x

/-- `n` iterations of a counting loop starting at counter `i`. -/
def forN (f : Int → σ → Res σ) : Nat → Int → σ → Res σ
  | 0, _, s => .ok s
  | n + 1, i, s => do
    let s' ← f i s
    forN f n (i + 1) s'

/-- `for (int i = a; i < b; ++i) { s = body(i, s); }`, with the loop-carried variables in `s`. -/
def forUp (a b : Int) (s : σ) (body : Int → σ → Res σ) : Res σ :=
  forN body (b - a).toNat a s

/-- `for (int i = b; i > a; --i) { s = body(i, s); }`: the counter runs `b, b-1, ..., a+1`. -/
def forDown (b a : Int) (s : σ) (body : Int → σ → Res σ) : Res σ :=
  forUp 0 (b - a) s (fun k s => body (b - k) s)

/-- `std::vector<T>(n, x)` (size computed as a signed integer; negative sizes throw `length_error`). -/
def mkVec (n : Int) (x : α) : Res (List α) :=
  if 0 ≤ n then .ok (List.replicate n.toNat x) else .error .threw

/-- A vector of `n` elements filled by `std::iota` from 0: `0, 1, ..., n-1`. -/
def iota (n : Nat) : List Int := (List.range n).map Int.ofNat

/-- `v.resize(n)` / `v.resize(n, x)`: truncate, or append copies of `x`. -/
def resize (v : List α) (n : Nat) (x : α) : List α :=
  v.take n ++ List.replicate (n - v.length) x

end Cpp
