import Mathlib.Algebra.Order.Field.Basic
import Mathlib.Algebra.Order.Field.Rat

/-!
# Floating-point types with NaN and infinities

`Floats F`: the operations and comparisons of a floating-point type.  `NanLaws` and `ZeroLaws` are the few facts used about them; IEEE 754 `double` has
them in every rounding mode.  `Ext K` is one type that has them: an ordered field with infinities and a NaN.
-/

namespace Linalg

/-- The arithmetic and the comparisons `<` and `==` of a floating-point type, and `std::fabs`. -/
class Floats (F : Type) extends Zero F, One F, Add F, Sub F, Mul F, Div F, Neg F where
  lt : F → F → Bool
  eq : F → F → Bool
  abs : F → F

namespace Floats
variable {F : Type} [Floats F]

/-- NaN: not equal to itself. -/
def IsNan (a : F) : Prop := eq a a = false

instance (a : F) : Decidable (IsNan a) := inferInstanceAs (Decidable (_ = _))

/-- One of the two zeros. -/
def IsZero (a : F) : Prop := eq a 0 = true

/-- Neither NaN nor infinite. -/
def IsFin (a : F) : Prop := IsZero (a - a)

end Floats
open Floats

/-- NaN goes through every operation, and every comparison with it is false. -/
class NanLaws (F : Type) [Floats F] : Prop where
  add_nan : ∀ a b : F, IsNan a ∨ IsNan b → IsNan (a + b)
  sub_nan : ∀ a b : F, IsNan a ∨ IsNan b → IsNan (a - b)
  mul_nan : ∀ a b : F, IsNan a ∨ IsNan b → IsNan (a * b)
  div_nan : ∀ a b : F, IsNan a ∨ IsNan b → IsNan (a / b)
  neg_nan : ∀ a : F, IsNan a → IsNan (-a)
  abs_nan : ∀ a : F, IsNan a → IsNan (abs a)
  lt_nan : ∀ a b : F, IsNan a ∨ IsNan b → lt a b = false
  eq_nan : ∀ a b : F, IsNan a ∨ IsNan b → eq a b = false

/-- What the operations do with zeros. -/
class ZeroLaws (F : Type) [Floats F] : Prop where
  zero : IsZero (0 : F)
  add : ∀ a b : F, IsZero a → IsZero b → IsZero (a + b)
  mul : ∀ a b : F, (IsZero a ∧ IsFin b) ∨ (IsFin a ∧ IsZero b) → IsZero (a * b)
  fin : ∀ a : F, IsZero a → IsFin a
  div : ∀ a b : F, IsZero a → IsZero b → IsNan (a / b)
  lt : ∀ a b : F, IsZero a → IsZero b → lt a b = false

/-- An ordered field with two infinities and a NaN (one zero, no rounding). -/
inductive Ext (K : Type) where
  | nan
  | inf (neg : Bool)
  | fin (x : K)
  deriving DecidableEq, Repr

namespace Ext
variable {K : Type} [Field K] [LinearOrder K]

def neg : Ext K → Ext K
  | nan => nan
  | inf s => inf (!s)
  | fin x => fin (-x)

def add : Ext K → Ext K → Ext K
  | nan, _ => nan
  | _, nan => nan
  | inf s, inf t => if s = t then inf s else nan
  | inf s, fin _ => inf s
  | fin _, inf t => inf t
  | fin x, fin y => fin (x + y)

def mul : Ext K → Ext K → Ext K
  | nan, _ => nan
  | _, nan => nan
  | inf s, inf t => inf (s != t)
  | inf s, fin y => if y = 0 then nan else inf (s != decide (y < 0))
  | fin x, inf t => if x = 0 then nan else inf (decide (x < 0) != t)
  | fin x, fin y => fin (x * y)

def div : Ext K → Ext K → Ext K
  | nan, _ => nan
  | _, nan => nan
  | inf _, inf _ => nan
  | inf s, fin y => inf (s != decide (y < 0))
  | fin _, inf _ => fin 0
  | fin x, fin y => if y = 0 then if x = 0 then nan else inf (decide (x < 0)) else fin (x / y)

def lt : Ext K → Ext K → Bool
  | nan, _ => false
  | _, nan => false
  | inf s, inf t => s && !t
  | inf s, fin _ => s
  | fin _, inf t => !t
  | fin x, fin y => decide (x < y)

def eq : Ext K → Ext K → Bool
  | nan, _ => false
  | _, nan => false
  | inf s, inf t => s == t
  | inf _, fin _ => false
  | fin _, inf _ => false
  | fin x, fin y => decide (x = y)

def abs : Ext K → Ext K
  | nan => nan
  | inf _ => inf false
  | fin x => fin |x|

instance : Floats (Ext K) where
  zero := fin 0
  one := fin 1
  add := add
  sub a b := add a (neg b)
  mul := mul
  div := div
  neg := neg
  lt := lt
  eq := eq
  abs := abs

theorem isNan_iff (a : Ext K) : IsNan a ↔ a = nan := by
  cases a with
  | nan => exact ⟨fun _ => rfl, fun _ => rfl⟩
  | inf s =>
    refine ⟨fun h => ?_, fun h => by simp at h⟩
    have : (s == s) = false := h
    simp at this
  | fin x =>
    refine ⟨fun h => ?_, fun h => by simp at h⟩
    have : decide (x = x) = false := h
    simp at this

theorem isZero_iff (a : Ext K) : IsZero a ↔ a = fin 0 := by
  cases a with
  | nan => exact ⟨fun h => (Bool.false_ne_true h).elim, fun h => by simp at h⟩
  | inf s => exact ⟨fun h => (Bool.false_ne_true h).elim, fun h => by simp at h⟩
  | fin x =>
    have : IsZero (fin x) ↔ decide (x = 0) = true := Iff.rfl
    rw [this, decide_eq_true_iff]
    simp

theorem isFin_iff (a : Ext K) : IsFin a ↔ ∃ x, a = fin x := by
  unfold IsFin
  rw [isZero_iff]
  cases a with
  | nan => exact ⟨fun h => (by cases h), fun ⟨x, h⟩ => by cases h⟩
  | inf s =>
    refine ⟨fun h => ?_, fun ⟨x, h⟩ => by cases h⟩
    have : add (inf s) (inf (!s)) = (fin 0 : Ext K) := h
    cases s <;> simp [add] at this
  | fin x =>
    refine ⟨fun _ => ⟨x, rfl⟩, fun _ => ?_⟩
    show fin (x + -x) = fin 0
    simp

instance : NanLaws (Ext K) where
  add_nan a b h := by
    rw [isNan_iff, isNan_iff] at h
    rw [isNan_iff]
    obtain rfl | rfl := h
    · rfl
    · cases a <;> rfl
  sub_nan a b h := by
    rw [isNan_iff, isNan_iff] at h
    rw [isNan_iff]
    obtain rfl | rfl := h
    · rfl
    · cases a <;> rfl
  mul_nan a b h := by
    rw [isNan_iff, isNan_iff] at h
    rw [isNan_iff]
    obtain rfl | rfl := h
    · rfl
    · cases a <;> rfl
  div_nan a b h := by
    rw [isNan_iff, isNan_iff] at h
    rw [isNan_iff]
    obtain rfl | rfl := h
    · rfl
    · cases a <;> rfl
  neg_nan a h := by
    rw [isNan_iff] at h
    subst h
    rfl
  abs_nan a h := by
    rw [isNan_iff] at h
    subst h
    rfl
  lt_nan a b h := by
    rw [isNan_iff, isNan_iff] at h
    obtain rfl | rfl := h
    · rfl
    · cases a <;> rfl
  eq_nan a b h := by
    rw [isNan_iff, isNan_iff] at h
    obtain rfl | rfl := h
    · rfl
    · cases a <;> rfl

instance : ZeroLaws (Ext K) where
  zero := (isZero_iff _).mpr rfl
  add a b ha hb := by
    rw [isZero_iff] at *
    subst ha hb
    show fin (0 + 0) = fin 0
    rw [add_zero]
  mul a b h := by
    rw [isZero_iff, isZero_iff, isFin_iff, isFin_iff] at h
    rw [isZero_iff]
    obtain ⟨rfl, x, rfl⟩ | ⟨⟨x, rfl⟩, rfl⟩ := h
    · show fin (0 * x) = fin 0
      rw [zero_mul]
    · show fin (x * 0) = fin 0
      rw [mul_zero]
  fin a h := by
    rw [isZero_iff] at h
    exact (isFin_iff _).mpr ⟨0, h⟩
  div a b ha hb := by
    rw [isZero_iff] at ha hb
    subst ha hb
    rw [isNan_iff]
    show (if (0 : K) = 0 then if (0 : K) = 0 then nan else inf (decide ((0 : K) < 0)) else fin (0 / 0)) = nan
    simp
  lt a b ha hb := by
    rw [isZero_iff] at ha hb
    subst ha hb
    show decide ((0 : K) < 0) = false
    simp

end Ext
end Linalg
