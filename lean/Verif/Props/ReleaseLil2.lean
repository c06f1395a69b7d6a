import Verif.Model.ReleaseLil2
import Verif.Props.ReleaseLil
import Verif.Props.ReleaseBlockOp

/-! # C141: adding a dense matrix to a LilMatrix without assertions -/

namespace Linalg
open Cpp

variable {α : Type}

theorem Refines.rd_take {β : Type} (l : List β) (n : Nat) (i : Int) : Refines (rd (l.take n) i) (rd l i) := by
  intro a h
  rw [rd_eq_ok] at h ⊢
  refine ⟨h.1, ?_⟩
  have := h.2
  rw [List.getElem?_take] at this
  split at this
  · exact this
  · cases this

/-- **C141.**  With assertions `Add(rows, cols, values)` is that of the other model. -/
theorem C141_addBlock_debug (L : Lil α) (r c : List Int) (D : Dense α) : Rel.lilAddBlock .debug L r c D = L.addBlock r c D := by
  unfold Rel.lilAddBlock Lil.addBlock
  simp only [Rel.lilAdd_debug]
  rfl

/-- **C141.**  `Add(rows, cols, values)` without assertions: longer lists are cut to the size of the dense matrix, giving what the call with the cut lists gives when it passes the
assertions; and no call returns normally whose list of columns is too short, or whose list of rows is too short for a matrix with columns. -/
theorem C141_addBlock (L : Lil α) (r c : List Int) (D : Dense α) (d1 : 0 ≤ D.rows) (d2 : 0 ≤ D.cols) :
    Refines (L.addBlock (r.take D.rows.toNat) (c.take D.cols.toNat) D) (Rel.lilAddBlock .release L r c D) ∧
    ∀ L', Rel.lilAddBlock .release L r c D = .ok L' → D.cols ≤ c.length ∧ (D.cols = 0 ∨ D.rows ≤ r.length) := by
  constructor
  · rw [← C141_addBlock_debug]
    exact Refines.bind (s := .ok ()) (fun _ _ => rfl) fun _ => Refines.bind (s := .ok ()) (fun _ _ => rfl) fun _ => Refines.forUp fun _ _ =>
      (Refines.rd_take _ _ _).bind fun _ => Refines.forUp fun _ _ => (Refines.rd_take _ _ _).bind fun _ => (Refines.dget _ _ _).bind fun _ =>
      Refines.lilAdd _ _ _ _
  · intro L' h
    obtain ⟨_, _, h⟩ := bind_eq_ok.mp h
    obtain ⟨_, _, h⟩ := bind_eq_ok.mp h
    by_cases hc : D.cols = 0
    · exact ⟨by omega, Or.inl hc⟩
    · obtain ⟨_, _, e⟩ := forUp_made h (show 0 ≤ D.cols - 1 by omega) (by omega)
      obtain ⟨_, e1, e⟩ := bind_eq_ok.mp e
      have h1 := (rd_eq_ok.mp e1).2
      have h2 := (List.getElem?_eq_some_iff.mp h1).1
      refine ⟨by omega, Or.inr ?_⟩
      by_cases hr : D.rows = 0
      · omega
      · obtain ⟨_, _, e⟩ := forUp_made e (show 0 ≤ D.rows - 1 by omega) (by omega)
        obtain ⟨_, e1, e⟩ := bind_eq_ok.mp e
        have h1 := (rd_eq_ok.mp e1).2
        have h2 := (List.getElem?_eq_some_iff.mp h1).1
        omega

/-- Lists longer and shorter than the dense matrix. -/
example : Lil.addBlock (⟨2, 2, true, [[], []]⟩ : Lil Int) [0, 1, 1] [1] ⟨2, 1, [5, 6]⟩ = .error .assertFail ∧
    Rel.lilAddBlock .release (⟨2, 2, true, [[], []]⟩ : Lil Int) [0, 1, 1] [1] ⟨2, 1, [5, 6]⟩ = .ok ⟨2, 2, true, [[(1, 5)], [(1, 6)]]⟩ ∧
    Lil.addBlock (⟨2, 2, true, [[], []]⟩ : Lil Int) [0, 1] [1] ⟨2, 1, [5, 6]⟩ = .ok ⟨2, 2, true, [[(1, 5)], [(1, 6)]]⟩ ∧
    Rel.lilAddBlock .release (⟨2, 2, true, [[], []]⟩ : Lil Int) [0] [1] ⟨2, 1, [5, 6]⟩ = .error .outOfBounds ∧
    Rel.lilAddBlock .release (⟨2, 2, true, [[], []]⟩ : Lil Int) [0] [] ⟨2, 0, []⟩ = .ok ⟨2, 2, true, [[], []]⟩ := by decide

end Linalg
