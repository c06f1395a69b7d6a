import Verif.Model.ParTold
import Verif.Proof.HandlesMat
import Verif.Spec.Csr

/-!
# The vectors `ParMatrix` hands to hypre (C126)
-/

namespace Linalg
open Cpp

variable {α : Type}

/-- How a vector is distributed that has one element per row, or per column, if these are the starts. -/
def Par.layoutOf (starts : List Int) : Int × List Int := (vecAt starts 2, starts)

theorem Hypre.layout_create (m m' : Mem (HCell α)) (o o' : ParOpObj) (rs cs : List Int) (hr : rs.length ≥ 3) (hc : cs.length ≥ 3) (h0 : o.comm ≠ 0)
    (e1 : m[o.rowStarts]? = some (some (.ints rs))) (e2 : m[o.colStarts]? = some (some (.ints cs)))
    (h : ParOpObj.hypreCreate m o = .ok (m', o')) :
    Hypre.layout m' o'.x = .ok (Par.layoutOf rs) ∧ Hypre.layout m' o'.b = .ok (Par.layoutOf cs) := by
  rw [ParOpObj.create_eq m o rs cs hr hc h0 e1 e2] at h
  have l1 := (List.getElem?_eq_some_iff.mp e1).1
  have l2 := (List.getElem?_eq_some_iff.mp e2).1
  simp only [Except.ok.injEq, Prod.mk.injEq] at h
  obtain ⟨rfl, rfl⟩ := h
  have g : ∀ l : List Int, l.length ≥ 3 → ParOpObj.globalSize l = vecAt l 2 := by
    intro l hl
    unfold ParOpObj.globalSize vecAt
    rw [if_pos hl]
    simp
  constructor
  · simp [Hypre.layout, Hypre.deref, Mem.get, Hypre.ints, List.getElem?_append_left l1, e1, g rs hr, Par.layoutOf, ok_bind]
  · simp [Hypre.layout, Hypre.deref, Mem.get, Hypre.ints, List.getElem?_append_left l2, e2, g cs hc, Par.layoutOf, ok_bind]

/-- **C126.**  What hypre is told by `Mult` and `MultAT` on plain vectors: that the argument of `Mult` is distributed like the rows and the result like the columns. -/
theorem C126_told (m m' : Mem (HCell α)) (comm rank : Int) (rs cs : List Int) (o : ParOpObj) (h : ParOpObj.make m comm rank rs cs = .ok (m', o)) :
    o.multLayouts m' = .ok (Par.layoutOf rs, Par.layoutOf cs) ∧ o.multATLayouts m' = .ok (Par.layoutOf cs, Par.layoutOf rs) := by
  unfold ParOpObj.make at h
  obtain ⟨r1, -, h⟩ := bind_eq_ok.mp h
  obtain ⟨r0, -, h⟩ := bind_eq_ok.mp h
  obtain ⟨c1, -, h⟩ := bind_eq_ok.mp h
  obtain ⟨c0, -, h⟩ := bind_eq_ok.mp h
  obtain ⟨-, -, h⟩ := bind_eq_ok.mp h
  obtain ⟨-, -, h⟩ := bind_eq_ok.mp h
  simp only [Mem.alloc] at h
  obtain ⟨u1, g1, h⟩ := bind_eq_ok.mp h
  obtain ⟨u2, g2, h⟩ := bind_eq_ok.mp h
  have l1 := cassert_ok_iff.mp g1
  have l2 := cassert_ok_iff.mp g2
  have h0 : comm ≠ 0 := by
    intro hz
    rw [ParOpObj.create_bad _ _ rs l1 hz (by simp)] at h
    cases h
  obtain ⟨a, b⟩ := Hypre.layout_create _ _ _ _ rs cs l1 l2 h0 (by simp) (by simp) h
  unfold ParOpObj.multLayouts ParOpObj.multATLayouts
  rw [a, b]
  exact ⟨rfl, rfl⟩

/-- **C126.**  The same for a copy. -/
theorem C126_told_copy (m m' : Mem (HCell α)) (o o' : ParOpObj) (rs cs : List Int) (hr : rs.length ≥ 3) (hc : cs.length ≥ 3)
    (e1 : m[o.rowStarts]? = some (some (.ints rs))) (e2 : m[o.colStarts]? = some (some (.ints cs))) (hv : o.comm > 0 ∧ o.myid ≥ 0)
    (h : ParOpObj.copy m o = .ok (m', o')) :
    o'.multLayouts m' = .ok (Par.layoutOf rs, Par.layoutOf cs) ∧ o'.multATLayouts m' = .ok (Par.layoutOf cs, Par.layoutOf rs) := by
  have l2 := (List.getElem?_eq_some_iff.mp e2).1
  have e2' : (m ++ [some (.ints rs)])[o.colStarts]? = some (some (.ints cs)) := by rw [List.getElem?_append_left l2]; exact e2
  unfold ParOpObj.copy at h
  obtain ⟨-, -, h⟩ := bind_eq_ok.mp h
  obtain ⟨-, -, h⟩ := bind_eq_ok.mp h
  rw [show Hypre.ints m (.to o.rowStarts) = .ok rs by simp [Hypre.ints, Hypre.deref, Mem.get_ok e1, ok_bind], ok_bind] at h
  simp only [Mem.alloc] at h
  rw [show Hypre.ints (m ++ [some (HCell.ints rs)]) (.to o.colStarts) = .ok cs by simp [Hypre.ints, Hypre.deref, Mem.get_ok e2', ok_bind], ok_bind] at h
  simp only [if_pos hv] at h
  obtain ⟨a, b⟩ := Hypre.layout_create _ _ _ _ rs cs hr hc (by show o.comm ≠ 0; omega) (by simp) (by simp) h
  unfold ParOpObj.multLayouts ParOpObj.multATLayouts
  rw [a, b]
  exact ⟨rfl, rfl⟩

/-- **C126.**  The argument and the result of `Mult`, and those of `MultAT`, are described as what they are exactly if rows and columns are distributed
alike, which makes the matrix square. -/
theorem C126_right_iff (m m' : Mem (HCell α)) (comm rank : Int) (rs cs : List Int) (o : ParOpObj) (h : ParOpObj.make m comm rank rs cs = .ok (m', o)) :
    (o.multLayouts m' = .ok (Par.layoutOf cs, Par.layoutOf rs) ↔ rs = cs) ∧ (o.multATLayouts m' = .ok (Par.layoutOf rs, Par.layoutOf cs) ↔ rs = cs) := by
  obtain ⟨a, b⟩ := C126_told m m' comm rank rs cs o h
  rw [a, b]
  simp only [Par.layoutOf, Except.ok.injEq, Prod.mk.injEq]
  refine ⟨⟨fun h => h.1.2, fun h => by subst h; simp⟩, ⟨fun h => h.1.2.symm, fun h => by subst h; simp⟩⟩

/-- **C126.**  For a matrix whose rows and columns are distributed alike hypre gets the right sizes. -/
theorem C126_square_partial (m m' : Mem (HCell α)) (comm rank : Int) (rs : List Int) (o : ParOpObj) (h : ParOpObj.make m comm rank rs rs = .ok (m', o)) :
    o.multLayouts m' = .ok (Par.layoutOf rs, Par.layoutOf rs) ∧ o.multATLayouts m' = .ok (Par.layoutOf rs, Par.layoutOf rs) :=
  C126_told m m' comm rank rs rs o h

/-- **C126.**  Not for others: a matrix with two rows and three columns on one process hands over an argument of size two and a result of size three. -/
theorem C126_false : ∃ (m : Mem (HCell ℚ)) (o : ParOpObj), ParOpObj.make [] 7 0 [0, 2, 2] [0, 3, 3] = .ok (m, o) ∧ o.rows = 2 ∧ o.cols = 3 ∧
    o.multLayouts m = .ok ((2, [0, 2, 2]), (3, [0, 3, 3])) ∧ o.multATLayouts m = .ok ((3, [0, 3, 3]), (2, [0, 2, 2])) := by
  refine ⟨_, _, rfl, rfl, rfl, rfl, rfl⟩

end Linalg
