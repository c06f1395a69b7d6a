import Verif.Spec.Ieee
import Verif.Spec.Vec

/-! # Divisions of floating-point numbers -/

namespace Linalg
open Floats

/-- A quotient is finite only if the numerator is finite and the divisor is neither zero nor NaN. -/
class DivLaws (F : Type) [Floats F] : Prop where
  num : ∀ a b : F, IsFin (a / b) → IsFin a
  zero : ∀ a b : F, IsZero b → ¬ IsFin (a / b)
  nan : ∀ a b : F, IsNan b → ¬ IsFin (a / b)

theorem Ext.div_fin {K : Type} [Field K] [LinearOrder K] {a b : Ext K} {q : K} (h : a / b = .fin q) : (∃ x, a = .fin x) ∧ b ≠ .fin 0 ∧ b ≠ .nan := by
  have h' : Ext.div a b = .fin q := h
  cases a with
  | nan => cases h'
  | inf s => cases b <;> cases h'
  | fin x =>
    cases b with
    | nan => cases h'
    | inf s => exact ⟨⟨x, rfl⟩, by simp, by simp⟩
    | fin y =>
      refine ⟨⟨x, rfl⟩, ?_, by simp⟩
      rintro e
      obtain rfl : y = 0 := Ext.fin.inj e
      simp only [Ext.div, if_true] at h'
      split at h' <;> cases h'

instance {K : Type} [Field K] [LinearOrder K] : DivLaws (Ext K) where
  num a b h := by
    rw [Ext.isFin_iff] at *
    obtain ⟨q, h⟩ := h
    exact (Ext.div_fin h).1
  zero a b hb h := by
    rw [Ext.isFin_iff] at h
    rw [Ext.isZero_iff] at hb
    obtain ⟨q, h⟩ := h
    exact (Ext.div_fin h).2.1 hb
  nan a b hb h := by
    rw [Ext.isFin_iff] at h
    rw [Ext.isNan_iff] at hb
    obtain ⟨q, h⟩ := h
    exact (Ext.div_fin h).2.2 hb

theorem Dbl.div_fin {a b : Dbl} (h : IsFin (a / b)) : ∃ q, a.ext / b.ext = .fin q := by
  rw [Dbl.isFin_iff] at h
  obtain ⟨x, h⟩ := h
  obtain ⟨z, hz, -⟩ := Dbl.fit_fin h
  exact ⟨z, hz⟩

instance : DivLaws Dbl where
  num a b h := by
    obtain ⟨q, h⟩ := Dbl.div_fin h
    exact (Dbl.isFin_iff a).mpr (Ext.div_fin h).1
  zero a b hb h := by
    obtain ⟨q, h⟩ := Dbl.div_fin h
    exact (Ext.div_fin h).2.1 ((Dbl.isZero_iff b).mp hb)
  nan a b hb h := by
    obtain ⟨q, h⟩ := Dbl.div_fin h
    exact (Ext.div_fin h).2.2 ((Dbl.isNan_iff b).mp hb)

/-- `c - p₁ - p₂ - ...`, from the left. -/
def subAll {F : Type} [Sub F] (c : F) (ps : List F) : F := ps.foldl (fun s p => s - p) c

end Linalg
