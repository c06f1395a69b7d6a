import Verif.Spec.Floats
import Verif.Spec.Csr
import Mathlib.Data.Rat.Cast.Order
import Mathlib.Algebra.Order.Archimedean.Real.Basic
import Mathlib.Tactic.NormNum

/-!
# Floating-point numbers that round, overflow and underflow

`RoundLaws F`: the finite elements of `F` stand for real numbers, and a finite result is near the exact one.  The laws say nothing about results that are not
finite, so overflow and NaN are included; `eta` is what a product can lose to underflow.  `Dbl` (`Spec/Ieee`) has them with `u = 2^-53` and `eta = 2^-1075`.
-/

namespace Linalg
open Floats

/-- The finite elements are real numbers, and finite results are near the exact ones. -/
class RoundLaws (F : Type) [Floats F] where
  val : F → ℝ
  u : ℝ
  eta : ℝ
  u_nonneg : 0 ≤ u
  eta_nonneg : 0 ≤ eta
  zero_fin : IsFin (0 : F)
  val_zero : val 0 = 0
  add : ∀ a b : F, IsFin (a + b) → IsFin a ∧ IsFin b ∧ |val (a + b) - (val a + val b)| ≤ u * |val a + val b|
  sub : ∀ a b : F, IsFin (a - b) → IsFin a ∧ IsFin b ∧ |val (a - b) - (val a - val b)| ≤ u * |val a - val b|
  mul : ∀ a b : F, IsFin (a * b) → IsFin a ∧ IsFin b ∧ |val (a * b) - val a * val b| ≤ u * |val a * val b| + eta
  lt_val : ∀ a b : F, IsFin a → IsFin b → Floats.lt a b = true → val a < val b

/-- Results up to `big` are finite. -/
class RangeLaws (F : Type) [Floats F] [RoundLaws F] where
  big : ℝ
  big_nonneg : 0 ≤ big
  add_fin : ∀ a b : F, IsFin a → IsFin b → |RoundLaws.val a + RoundLaws.val b| ≤ big → IsFin (a + b)
  mul_fin : ∀ a b : F, IsFin a → IsFin b → |RoundLaws.val a * RoundLaws.val b| ≤ big → IsFin (a * b)

/-- The numbers of a vector. -/
def valAt {F : Type} [Floats F] [RoundLaws F] (x : List F) (i : Int) : ℝ := RoundLaws.val (vecAt x i)

/-- `A x` without rounding. -/
def Csr.valMul {F : Type} [Floats F] [RoundLaws F] (A : Csr F) (x : List F) (i : Int) : ℝ :=
  ((A.row i).map (fun e => RoundLaws.val e.2 * valAt x e.1)).sum

/-- The sum of the absolute values in a row. -/
def Csr.valSum {F : Type} [Floats F] [RoundLaws F] (A : Csr F) (i : Int) : ℝ := ((A.row i).map (fun e => |RoundLaws.val e.2|)).sum

/-- Exact arithmetic with NaN and infinities is the case without rounding. -/
noncomputable instance : RoundLaws (Ext ℚ) where
  val a := match a with
    | .fin x => x
    | _ => 0
  u := 0
  eta := 0
  u_nonneg := le_refl _
  eta_nonneg := le_refl _
  zero_fin := (Ext.isFin_iff _).mpr ⟨0, rfl⟩
  val_zero := Rat.cast_zero
  add a b h := by
    obtain ⟨z, hz⟩ := (Ext.isFin_iff _).mp h
    cases a with
    | nan => cases hz
    | inf s =>
      cases b with
      | nan => cases hz
      | inf t => have : (if s = t then Ext.inf s else Ext.nan) = Ext.fin z := hz; split at this <;> cases this
      | fin y => cases hz
    | fin x =>
      cases b with
      | nan => cases hz
      | inf t => cases hz
      | fin y =>
        refine ⟨(Ext.isFin_iff _).mpr ⟨x, rfl⟩, (Ext.isFin_iff _).mpr ⟨y, rfl⟩, ?_⟩
        show |((x + y : ℚ) : ℝ) - (x + y)| ≤ _
        push_cast
        simp
  sub a b h := by
    obtain ⟨z, hz⟩ := (Ext.isFin_iff _).mp h
    cases a with
    | nan => cases hz
    | inf s =>
      cases b with
      | nan => cases hz
      | inf t => have : (if s = !t then Ext.inf s else Ext.nan) = Ext.fin z := hz; split at this <;> cases this
      | fin y => cases hz
    | fin x =>
      cases b with
      | nan => cases hz
      | inf t => cases hz
      | fin y =>
        refine ⟨(Ext.isFin_iff _).mpr ⟨x, rfl⟩, (Ext.isFin_iff _).mpr ⟨y, rfl⟩, ?_⟩
        show |((x + -y : ℚ) : ℝ) - (x - y)| ≤ _
        push_cast
        rw [← sub_eq_add_neg]
        simp
  mul a b h := by
    obtain ⟨z, hz⟩ := (Ext.isFin_iff _).mp h
    cases a with
    | nan => cases hz
    | inf s =>
      cases b with
      | nan => cases hz
      | inf t => cases hz
      | fin y =>
        have : (if y = 0 then Ext.nan else Ext.inf (s != decide (y < 0))) = Ext.fin z := hz
        split at this <;> cases this
    | fin x =>
      cases b with
      | nan => cases hz
      | inf t =>
        have : (if x = 0 then Ext.nan else Ext.inf (decide (x < 0) != t)) = Ext.fin z := hz
        split at this <;> cases this
      | fin y =>
        refine ⟨(Ext.isFin_iff _).mpr ⟨x, rfl⟩, (Ext.isFin_iff _).mpr ⟨y, rfl⟩, ?_⟩
        show |((x * y : ℚ) : ℝ) - x * y| ≤ _
        push_cast
        simp
  lt_val a b ha hb h := by
    obtain ⟨x, rfl⟩ := (Ext.isFin_iff _).mp ha
    obtain ⟨y, rfl⟩ := (Ext.isFin_iff _).mp hb
    have : decide (x < y) = true := h
    show (x : ℝ) < (y : ℝ)
    exact_mod_cast of_decide_eq_true this

end Linalg
