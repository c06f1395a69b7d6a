import Verif.Proof.View
import Verif.Proof.Coo
import Mathlib.Algebra.Order.Field.Basic
import Mathlib.Algebra.CharZero.Defs
import Mathlib.Algebra.BigOperators.Field
import Mathlib.Algebra.Field.Rat
import Mathlib.Algebra.Order.Ring.Rat
import Mathlib.Tactic.Ring
import Mathlib.Tactic.NormNum

/-!
# Vectors and views (C27 - C32)
-/

namespace Linalg
open Cpp

variable {α β' R : Type}

/-! ## C28: element-wise updates -/

/-- What an element-wise update must do: element `i` of the view `x` becomes `g i`, nothing else changes. -/
def Updates [Zero R] (x : View) (m m' : List R) (g : Int → R) : Prop :=
  VecIs m' m.length (fun p => if x.Has p then g (p - x.off) else vecAt m p)

theorem update_of_loop [Zero R] (x : View) (m : List R) (hx : x.InMem m) (g : Int → R)
    (body : Int → List R → Res (List R))
    (hb : ∀ (i : Int) (h : Int → R), 0 ≤ i → i < x.size →
      (∀ p, ¬ (x.off ≤ p ∧ p < x.off + i) → h p = vecAt m p) →
      body i (vecFn m.length h) = .ok (vecFn m.length (fun p => if p = x.off + i then g i else h p))) :
    ∃ m', forUp 0 x.size m body = .ok m' ∧ Updates x m m' g := by
  refine ⟨vecFn m.length (fun p => if x.off ≤ p ∧ p < x.off + x.size then g (p - x.off) else vecAt m p), ?_,
    is_vecFn _ _⟩
  have := mapLoop (N := m.length) x.off hx.size_nonneg (vecAt m) g body hb
  rw [← eq_vecFn_vecAt m] at this
  exact this

/-- **C28.**  `x.Add(a, y)`, `x.Sub(a, y)`, `x.Set(a, y)`: each element becomes the stated combination of the
original elements, for `y` equal to `x` or apart from it, and nothing else changes. -/
theorem C28_scaled [Ring R] (x y : View) (m : List R) (hx : x.InMem m) (hy : y.InMem m) (hs : y.size = x.size)
    (ha : x.SameOrApart y) (a : R) :
    (∃ m', x.addScaled a y m = .ok m' ∧
      Updates x m m' (fun i => vecAt m (x.off + i) + a * vecAt m (y.off + i))) ∧
    (∃ m', x.subScaled a y m = .ok m' ∧
      Updates x m m' (fun i => vecAt m (x.off + i) - a * vecAt m (y.off + i))) ∧
    (∃ m', x.setScaled a y m = .ok m' ∧ Updates x m m' (fun i => a * vecAt m (y.off + i))) := by
  have hx1 := hx.off_nonneg
  have hx2 := hx.fits
  have hy1 := hy.off_nonneg
  have hy2 := hy.fits
  refine ⟨?_, ?_, ?_⟩
  · unfold View.addScaled
    rw [cassert_true hs, ok_bind]
    apply update_of_loop x m hx
    intro i h i0 i1 hh
    rw [View.get_vecFn hy1 hy2 i0 (by omega), ok_bind, rd_vecFn (by omega) (by omega), ok_bind,
      wr_vecFn _ (by omega) (by omega), ha.orig hs i0 i1 hh, hh (x.off + i) (by omega)]
  · unfold View.subScaled
    rw [cassert_true hs, ok_bind]
    apply update_of_loop x m hx
    intro i h i0 i1 hh
    rw [View.get_vecFn hy1 hy2 i0 (by omega), ok_bind, rd_vecFn (by omega) (by omega), ok_bind,
      wr_vecFn _ (by omega) (by omega), ha.orig hs i0 i1 hh, hh (x.off + i) (by omega)]
  · unfold View.setScaled
    rw [cassert_true hs, ok_bind]
    apply update_of_loop x m hx
    intro i h i0 i1 hh
    rw [View.get_vecFn hy1 hy2 i0 (by omega), ok_bind, wr_vecFn _ (by omega) (by omega), ha.orig hs i0 i1 hh]

/-- **C28.**  `x += y`, `x -= y`, `x *= y`. -/
theorem C28_entrywise [Ring R] (x y : View) (m : List R) (hx : x.InMem m) (hy : y.InMem m) (hs : y.size = x.size)
    (ha : x.SameOrApart y) :
    (∃ m', x.addAssign y m = .ok m' ∧ Updates x m m' (fun i => vecAt m (x.off + i) + vecAt m (y.off + i))) ∧
    (∃ m', x.subAssign y m = .ok m' ∧ Updates x m m' (fun i => vecAt m (x.off + i) - vecAt m (y.off + i))) ∧
    (∃ m', x.mulAssign y m = .ok m' ∧ Updates x m m' (fun i => vecAt m (x.off + i) * vecAt m (y.off + i))) := by
  have hx1 := hx.off_nonneg
  have hx2 := hx.fits
  have hy1 := hy.off_nonneg
  have hy2 := hy.fits
  refine ⟨?_, ?_, ?_⟩
  · unfold View.addAssign
    rw [cassert_true hs.symm, ok_bind]
    apply update_of_loop x m hx
    intro i h i0 i1 hh
    rw [View.get_vecFn hy1 hy2 i0 (by omega), ok_bind, View.get_vecFn hx1 hx2 i0 i1, ok_bind,
      View.put_vecFn _ hx1 hx2 i0 i1, ha.orig hs i0 i1 hh, hh (x.off + i) (by omega)]
  · unfold View.subAssign
    rw [cassert_true hs.symm, ok_bind]
    apply update_of_loop x m hx
    intro i h i0 i1 hh
    rw [View.get_vecFn hy1 hy2 i0 (by omega), ok_bind, View.get_vecFn hx1 hx2 i0 i1, ok_bind,
      View.put_vecFn _ hx1 hx2 i0 i1, ha.orig hs i0 i1 hh, hh (x.off + i) (by omega)]
  · unfold View.mulAssign
    rw [cassert_true hs.symm, ok_bind]
    apply update_of_loop x m hx
    intro i h i0 i1 hh
    rw [View.get_vecFn hy1 hy2 i0 (by omega), ok_bind, View.get_vecFn hx1 hx2 i0 i1, ok_bind,
      View.put_vecFn _ hx1 hx2 i0 i1, ha.orig hs i0 i1 hh, hh (x.off + i) (by omega)]

/-- **C28.**  `x /= y`, when no element of `y` is zero. -/
theorem C28_divAssign [Field R] [DecidableEq R] (x y : View) (m : List R) (hx : x.InMem m) (hy : y.InMem m)
    (hs : y.size = x.size) (ha : x.SameOrApart y) (hz : ∀ i, 0 ≤ i → i < y.size → vecAt m (y.off + i) ≠ 0) :
    ∃ m', x.divAssign y m = .ok m' ∧ Updates x m m' (fun i => vecAt m (x.off + i) / vecAt m (y.off + i)) := by
  have hx1 := hx.off_nonneg
  have hx2 := hx.fits
  have hy1 := hy.off_nonneg
  have hy2 := hy.fits
  unfold View.divAssign
  rw [cassert_true hs.symm, ok_bind]
  apply update_of_loop x m hx
  intro i h i0 i1 hh
  rw [View.get_vecFn hy1 hy2 i0 (by omega), ok_bind, ha.orig hs i0 i1 hh, cassert_true (hz i i0 (by omega)), ok_bind,
    View.get_vecFn hx1 hx2 i0 i1, ok_bind, View.put_vecFn _ hx1 hx2 i0 i1, hh (x.off + i) (by omega)]

/-- **C28.**  Operations with a scalar: `x *= a`, `x += a`, `x -= a`, `x = a`. -/
theorem C28_scalar [Ring R] (x : View) (m : List R) (hx : x.InMem m) (a : R) :
    (∃ m', x.scale a m = .ok m' ∧ Updates x m m' (fun i => vecAt m (x.off + i) * a)) ∧
    (∃ m', x.addScalar a m = .ok m' ∧ Updates x m m' (fun i => vecAt m (x.off + i) + a)) ∧
    (∃ m', x.subScalar a m = .ok m' ∧ Updates x m m' (fun i => vecAt m (x.off + i) - a)) ∧
    (∃ m', x.fill a m = .ok m' ∧ Updates x m m' (fun _ => a)) := by
  have hx1 := hx.off_nonneg
  have hx2 := hx.fits
  refine ⟨?_, ?_, ?_, ?_⟩
  · unfold View.scale
    apply update_of_loop x m hx
    intro i h i0 i1 hh
    rw [rd_vecFn (by omega) (by omega), ok_bind, wr_vecFn _ (by omega) (by omega), hh (x.off + i) (by omega)]
  · unfold View.addScalar
    apply update_of_loop x m hx
    intro i h i0 i1 hh
    rw [rd_vecFn (by omega) (by omega), ok_bind, wr_vecFn _ (by omega) (by omega), hh (x.off + i) (by omega)]
  · unfold View.subScalar
    apply update_of_loop x m hx
    intro i h i0 i1 hh
    rw [rd_vecFn (by omega) (by omega), ok_bind, wr_vecFn _ (by omega) (by omega), hh (x.off + i) (by omega)]
  · unfold View.fill
    apply update_of_loop x m hx
    intro i h i0 i1 hh
    rw [wr_vecFn _ (by omega) (by omega)]

/-- **C28.**  `x /= a` divides every element by a non-zero scalar and rejects zero. -/
theorem C28_divScalar [Field R] [DecidableEq R] (x : View) (m : List R) (hx : x.InMem m) (a : R) :
    (a ≠ 0 → ∃ m', x.divScalar a m = .ok m' ∧ Updates x m m' (fun i => vecAt m (x.off + i) / a)) ∧
    (a = 0 → x.divScalar a m = .error .assertFail) := by
  have hx1 := hx.off_nonneg
  have hx2 := hx.fits
  refine ⟨fun h => ?_, fun h => ?_⟩
  · unfold View.divScalar
    rw [cassert_true h, ok_bind]
    apply update_of_loop x m hx
    intro i h i0 i1 hh
    rw [rd_vecFn (by omega) (by omega), ok_bind, wr_vecFn _ (by omega) (by omega), hh (x.off + i) (by omega)]
  · unfold View.divScalar
    rw [cassert_false (by simpa using h)]; rfl

/-- **C28.**  `z = alpha x + beta y + gamma z`, `z = x + y`, `z = x - y`, where each of `x`, `y` may be `z`. -/
theorem C28_combine [Ring R] (x y z : View) (m : List R) (hx : x.InMem m) (hy : y.InMem m) (hz : z.InMem m)
    (hs : y.size = x.size) (hs' : z.size = x.size) (hax : z.SameOrApart x) (hay : z.SameOrApart y) (a b c : R) :
    (∃ m', View.combine a x b y c z m = .ok m' ∧ Updates z m m' (fun i =>
      a * vecAt m (x.off + i) + b * vecAt m (y.off + i) + c * vecAt m (z.off + i))) ∧
    (∃ m', View.add3 x y z m = .ok m' ∧ Updates z m m' (fun i => vecAt m (x.off + i) + vecAt m (y.off + i))) ∧
    (∃ m', View.sub3 x y z m = .ok m' ∧ Updates z m m' (fun i => vecAt m (x.off + i) - vecAt m (y.off + i))) := by
  have hx1 := hx.off_nonneg
  have hx2 := hx.fits
  have hy1 := hy.off_nonneg
  have hy2 := hy.fits
  have hz1 := hz.off_nonneg
  have hz2 := hz.fits
  have key : ∀ a b c : R, ∃ m', View.combine a x b y c z m = .ok m' ∧ Updates z m m' (fun i =>
      a * vecAt m (x.off + i) + b * vecAt m (y.off + i) + c * vecAt m (z.off + i)) := by
    intro a b c
    unfold View.combine
    rw [cassert_true hs, cassert_true hs']
    simp only [ok_bind]
    rw [← hs']
    apply update_of_loop z m hz
    intro i h i0 i1 hh
    rw [View.get_vecFn hx1 hx2 i0 (by omega), ok_bind, View.get_vecFn hy1 hy2 i0 (by omega), ok_bind,
      View.get_vecFn hz1 hz2 i0 i1, ok_bind, View.put_vecFn _ hz1 hz2 i0 i1,
      hax.orig hs'.symm i0 i1 hh, hay.orig (by omega) i0 i1 hh, hh (z.off + i) (by omega)]
  refine ⟨key a b c, ?_, ?_⟩
  · obtain ⟨m', h1, h2⟩ := key 1 1 0
    exact ⟨m', h1, h2.congr (fun p _ _ => by simp)⟩
  · obtain ⟨m', h1, h2⟩ := key 1 (-1) 0
    exact ⟨m', h1, h2.congr (fun p _ _ => by simp [sub_eq_add_neg])⟩

/-- **C28.**  Assignment `x = y` copies, for `y` equal to `x` or apart from it. -/
theorem C28_assign [Zero R] (x y : View) (m : List R) (hx : x.InMem m) (hy : y.InMem m) (hs : y.size = x.size)
    (ha : x.SameOrApart y) :
    ∃ m', x.assign y m = .ok m' ∧ Updates x m m' (fun i => vecAt m (y.off + i)) := by
  have hx1 := hx.off_nonneg
  have hx2 := hx.fits
  have hy1 := hy.off_nonneg
  have hy2 := hy.fits
  unfold View.assign View.copy
  rw [cassert_true hs, ok_bind, if_neg (by
    rcases ha with h | h
    · omega
    · intro hp
      exact h x.off ⟨by unfold View.Has; omega, by unfold View.Has; omega⟩), hs]
  apply update_of_loop x m hx
  intro i h i0 i1 hh
  rw [rd_vecFn (by omega) (by omega), ok_bind, wr_vecFn _ (by omega) (by omega), ha.orig hs i0 i1 hh]

/-- **C28.**  All two-operand updates reject operands of different length. -/
theorem C28_rejects [Field R] [DecidableEq R] (x y : View) (m : List R) (a : R) (hs : y.size ≠ x.size) :
    x.addScaled a y m = .error .assertFail ∧ x.subScaled a y m = .error .assertFail ∧
    x.setScaled a y m = .error .assertFail ∧ x.addAssign y m = .error .assertFail ∧
    x.subAssign y m = .error .assertFail ∧ x.mulAssign y m = .error .assertFail ∧
    x.divAssign y m = .error .assertFail ∧ x.assign y m = .error .assertFail := by
  have hs' : ¬ x.size = y.size := fun h => hs h.symm
  unfold View.addScaled View.subScaled View.setScaled View.addAssign View.subAssign View.mulAssign View.divAssign
    View.assign
  rw [cassert_false hs, cassert_false hs']
  exact ⟨rfl, rfl, rfl, rfl, rfl, rfl, rfl, rfl⟩

/-- **C28.**  The condition on aliasing is needed: on views shifted by one, `x += y` reads changed elements. -/
theorem C28_overlap_false : ∃ (x y : View) (m : List Int), x.InMem m ∧ y.InMem m ∧ y.size = x.size ∧
    x.addAssign y m = .ok [1, 2, 3] ∧
    ¬ Updates x m [1, 2, 3] (fun i => vecAt m (x.off + i) + vecAt m (y.off + i)) := by
  refine ⟨⟨1, 2⟩, ⟨0, 2⟩, [1, 1, 1], ⟨by decide, by decide, by decide⟩, ⟨by decide, by decide, by decide⟩, rfl,
    by decide, ?_⟩
  intro h
  have := h.get_eq 2 (by decide) (by decide)
  revert this
  decide

/-- C28: `x += x`, and `x += y` for separate halves. -/
example : ∃ (x y : View) (m : List Int), x.InMem m ∧ y.InMem m ∧ y.size = x.size ∧ x.SameOrApart y ∧ x.SameOrApart x ∧
    x.addAssign y m = .ok [5, 7, 9, 4, 5, 6] ∧ x.addAssign x m = .ok [2, 4, 6, 4, 5, 6] :=
  ⟨⟨0, 3⟩, ⟨3, 3⟩, [1, 2, 3, 4, 5, 6], ⟨by decide, by decide, by decide⟩, ⟨by decide, by decide, by decide⟩, rfl,
    Or.inr (by intro p; unfold View.Has; simp only; omega), Or.inl rfl, by decide, by decide⟩

/-! ## C27: views alias exactly what they name -/

/-- **C27.**  Writing element `i` of a view changes exactly that position of the memory, and reading it back through
any view that names the position returns the written value. -/
theorem C27_write (v : View) (m : List α) (hv : v.InMem m) (i : Int) (x : α) (h0 : 0 ≤ i) (h1 : i < v.size) :
    ∃ m', v.put m i x = .ok m' ∧ m'.length = m.length ∧ rd m' (v.off + i) = .ok x ∧
      (∀ p, p ≠ v.off + i → rd m' p = rd m p) ∧
      (∀ (w : View) (j : Int), w.off + j = v.off + i → j < w.size → w.get m' j = .ok x) ∧
      (∀ (w : View) (j : Int), w.off + j ≠ v.off + i → w.get m' j = w.get m j) := by
  have a := hv.off_nonneg
  have b := hv.fits
  obtain ⟨k, hk⟩ : ∃ k : Nat, v.off + i = k := ⟨(v.off + i).toNat, by omega⟩
  have hkl : k < m.length := by omega
  refine ⟨m.set k x, ?_, by simp, ?_, ?_, ?_, ?_⟩
  · unfold View.put
    rw [cassert_true h1, ok_bind, hk, wr_nat hkl]
  · rw [hk, rd_nat (by simpa using hkl)]; simp
  · intro p hp
    unfold rd
    split
    · rw [List.getElem?_set_ne (by omega)]
    · rfl
  · intro w j hj hj'
    unfold View.get
    rw [cassert_true hj', ok_bind, hj, hk, rd_nat (by simpa using hkl)]; simp
  · intro w j hj
    unfold View.get
    congr 1
    funext _
    unfold rd
    split
    · rw [List.getElem?_set_ne (by omega)]
    · rfl

/-- **C27.**  Block `b` of a block vector names exactly the elements from `offsets[b]` up to `offsets[b+1]` of the
vector. -/
theorem C27_getBlock (v : View) (offsets : List Int) (b : Int) (h0 : 0 ≤ b) (h1 : b + 1 < offsets.length)
    (hm : offsets.Pairwise (· ≤ ·)) :
    ∃ w, v.getBlock offsets b = .ok w ∧ (∀ p, w.Has p ↔ v.off + vecAt offsets b ≤ p ∧ p < v.off + vecAt offsets (b + 1)) ∧
      0 ≤ w.size ∧
      ∀ m : List α, ∀ i, 0 ≤ i → i < w.size → w.size + vecAt offsets b ≤ v.size →
        w.get m i = v.get m (vecAt offsets b + i) := by
  have hle : vecAt offsets b ≤ vecAt offsets (b + 1) := by
    rw [vecAt_int offsets h0 (by omega), vecAt_int offsets (by omega) h1]
    exact List.pairwise_iff_getElem.mp hm _ _ _ _ (by omega)
  refine ⟨⟨v.off + vecAt offsets b, vecAt offsets (b + 1) - vecAt offsets b⟩, ?_, ?_, by simp only; omega, ?_⟩
  · unfold View.getBlock
    rw [cassert_true (by omega), ok_bind, rd_vecAt offsets h0 (by omega), ok_bind, rd_vecAt offsets (by omega) h1,
      ok_bind, cassert_true (by omega), ok_bind]
  · intro p
    unfold View.Has
    simp only
    omega
  · intro m i i0 i1 hs
    unfold View.get
    simp only at i1 hs ⊢
    rw [cassert_true i1, cassert_true (by omega)]
    simp only [ok_bind]
    congr 1
    omega

/-- **C27.**  Different blocks share no element. -/
theorem C27_blocks_apart (v : View) (offsets : List Int) (hm : offsets.Pairwise (· ≤ ·)) (b c : Int) (h0 : 0 ≤ b)
    (hbc : b < c) (w u : View) (hw : v.getBlock offsets b = .ok w) (hu : v.getBlock offsets c = .ok u) (p : Int) :
    ¬ (w.Has p ∧ u.Has p) := by
  have key : ∀ (b : Int) (w : View), 0 ≤ b → v.getBlock offsets b = .ok w → b + 1 < offsets.length ∧
      w.off = v.off + vecAt offsets b ∧ w.size = vecAt offsets (b + 1) - vecAt offsets b := by
    intro b w h0 h
    unfold View.getBlock at h
    by_cases hb : b < (offsets.length : Int) - 1
    · rw [cassert_true hb, ok_bind, rd_vecAt offsets h0 (by omega), ok_bind, rd_vecAt offsets (by omega) (by omega),
        ok_bind] at h
      by_cases hd : vecAt offsets (b + 1) - vecAt offsets b ≥ 0
      · rw [cassert_true hd] at h
        obtain rfl := Except.ok.inj h
        exact ⟨by omega, rfl, rfl⟩
      · rw [cassert_false hd] at h; cases h
    · rw [cassert_false hb] at h; cases h
  obtain ⟨b1, b2, b3⟩ := key b w h0 hw
  obtain ⟨c1, c2, c3⟩ := key c u (by omega) hu
  have hle : vecAt offsets (b + 1) ≤ vecAt offsets c := by
    rw [vecAt_int offsets (by omega) (by omega), vecAt_int offsets (by omega) (by omega)]
    by_cases he : b + 1 = c
    · subst he; exact le_rfl
    · exact List.pairwise_iff_getElem.mp hm _ _ _ _ (by omega)
  unfold View.Has
  omega

/-- **C27.**  Element `i` of the view of column `j` of a dense matrix is `D(i, j)`: reading agrees, and writing through
the view has the effect of assigning `D(i, j)`, which changes no other entry (C33). -/
theorem C27_getColView (D : Dense α) (i j : Int) (hi : 0 ≤ i) (hi' : i < D.rows) (hj : 0 ≤ j)
    (hj' : j < D.cols) :
    ∃ v, D.getColView j = .ok v ∧ v.size = D.rows ∧ v.get D.data i = D.get i j ∧
      ∀ x, (do let d ← v.put D.data i x; .ok ({ D with data := d } : Dense α)) = D.put i j x := by
  refine ⟨⟨j * D.rows, D.rows⟩, ?_, rfl, ?_, ?_⟩
  · unfold Dense.getColView
    rw [cassert_true ⟨hj, hj'⟩, ok_bind]
  · unfold View.get Dense.get Dense.checkIdx
    rw [cassert_true hi, cassert_true hj, cassert_true hi', cassert_true hj']
    simp only [ok_bind]
    rw [Int.add_comm]
  · intro x
    unfold View.put Dense.put Dense.checkIdx
    rw [cassert_true hi, cassert_true hj, cassert_true hi', cassert_true hj']
    simp only [ok_bind]
    rw [Int.add_comm]

/-- C27: writing the second block of a block vector. -/
example : ∃ (v w : View) (offsets : List Int) (m : List Int), v.InMem m ∧ offsets.Pairwise (· ≤ ·) ∧
    v.getBlock offsets 1 = .ok w ∧ w.InMem m ∧ w.put m 0 9 = .ok [1, 2, 9, 4] :=
  ⟨⟨0, 4⟩, ⟨2, 2⟩, [0, 2, 4], [1, 2, 3, 4], ⟨by decide, by decide, by decide⟩, by decide, by decide,
    ⟨by decide, by decide, by decide⟩, by decide⟩

/-! ## C29: equality -/

theorem eqTol_loop [LinearOrder R] [AddGroup R] (tol : R) (x y : List R) (h : x.length = y.length) :
    ∃ b, Vec.eqTol tol x y = .ok b ∧ (b = true ↔ ∀ i : Nat, ∀ (h1 : i < x.length) (h2 : i < y.length), |x[i] - y[i]| ≤ tol) := by
  unfold Vec.eqTol
  rw [if_neg (by simpa using h)]
  obtain ⟨s, h1, h2⟩ := forUp_inv_nat (n := x.length) (f := fun i (bad : Bool) =>
      if bad then .ok true
      else do
        let a ← vrd x i
        let b ← vrd y i
        .ok (decide (|a - b| > tol)))
    (fun k bad => bad = false ↔ ∀ i : Nat, i < k → ∀ (h1 : i < x.length) (h2 : i < y.length), |x[i] - y[i]| ≤ tol)
    (s := false) (by simp) (by
      intro k bad hk hI
      cases bad with
      | true =>
        refine ⟨true, by simp, ?_⟩
        constructor
        · intro h; cases h
        · intro h; exact hI.mpr (fun i hi => h i (by omega))
      | false =>
        refine ⟨decide (|x[k] - y[k]| > tol), ?_, ?_⟩
        · simp only [Bool.false_eq_true, if_false]
          rw [vrd_nat hk, ok_bind, vrd_nat (by omega), ok_bind]
        · have hall := hI.mp rfl
          simp only [gt_iff_lt, decide_eq_false_iff_not, not_lt]
          constructor
          · intro h i hi hi1 hi2
            by_cases hik : i < k
            · exact hall i hik hi1 hi2
            · obtain rfl : i = k := by omega
              exact h
          · intro h; exact h k (by omega) hk (by omega))
  rw [h1]
  refine ⟨!s, rfl, ?_⟩
  rw [Bool.not_eq_true', h2]
  exact ⟨fun h i h1 h2 => h i h1 h1 h2, fun h i _ h1 h2 => h i h1 h2⟩

/-- **C29.**  `operator==` is true exactly when the lengths are equal and no difference exceeds the tolerance. -/
theorem C29_iff [LinearOrder R] [AddGroup R] (tol : R) (x y : List R) :
    ∃ b, Vec.eqTol tol x y = .ok b ∧ (b = true ↔ x.length = y.length ∧
      ∀ i : Nat, ∀ (h1 : i < x.length) (h2 : i < y.length), |x[i] - y[i]| ≤ tol) := by
  by_cases h : x.length = y.length
  · obtain ⟨b, h1, h2⟩ := eqTol_loop tol x y h
    exact ⟨b, h1, by rw [h2]; simp [h]⟩
  · refine ⟨false, ?_, by simp [h]⟩
    unfold Vec.eqTol
    rw [if_pos h]

/-- **C29.**  It is reflexive and symmetric. -/
theorem C29_refl_symm [LinearOrder R] [AddCommGroup R] [IsOrderedAddMonoid R] (tol : R) (ht : 0 ≤ tol) (x y : List R) :
    Vec.eqTol tol x x = .ok true ∧ Vec.eqTol tol x y = Vec.eqTol tol y x := by
  constructor
  · obtain ⟨b, h1, h2⟩ := C29_iff tol x x
    rw [h1, h2.mpr ⟨rfl, fun i _ _ => by simpa using ht⟩]
  · obtain ⟨b, h1, h2⟩ := C29_iff tol x y
    obtain ⟨c, h3, h4⟩ := C29_iff tol y x
    rw [h1, h3]
    congr 1
    rw [Bool.eq_iff_iff, h2, h4]
    constructor
    · rintro ⟨e, h⟩
      exact ⟨e.symm, fun i h1 h2 => by rw [abs_sub_comm]; exact h i h2 h1⟩
    · rintro ⟨e, h⟩
      exact ⟨e.symm, fun i h1 h2 => by rw [abs_sub_comm]; exact h i h2 h1⟩

/-- **C29.**  For no positive tolerance is it transitive. -/
theorem C29_not_transitive [LinearOrder R] [AddCommGroup R] [IsOrderedAddMonoid R] (tol : R) (ht : 0 < tol) :
    ∃ x y z : List R, Vec.eqTol tol x y = .ok true ∧ Vec.eqTol tol y z = .ok true ∧ Vec.eqTol tol x z = .ok false := by
  have key : ∀ a b : R, Vec.eqTol tol [a] [b] = .ok (decide (|a - b| ≤ tol)) := by
    intro a b
    obtain ⟨c, h1, h2⟩ := C29_iff tol [a] [b]
    rw [h1]
    congr 1
    rw [Bool.eq_iff_iff, h2, decide_eq_true_iff]
    constructor
    · rintro ⟨_, h⟩; exact h 0 (by simp) (by simp)
    · intro h
      refine ⟨rfl, fun i hi _ => ?_⟩
      obtain rfl : i = 0 := by simpa using hi
      exact h
  refine ⟨[0], [tol], [tol + tol], ?_, ?_, ?_⟩
  · rw [key]; simp [abs_of_pos ht]
  · rw [key]; simp [abs_of_pos ht]
  · rw [key]
    have : |0 - (tol + tol)| = tol + tol := by
      rw [zero_sub, abs_neg, abs_of_pos (add_pos ht ht)]
    rw [this, decide_eq_false]
    exact not_le.mpr (lt_add_of_pos_left tol ht)

/-- **C29.**  `operator==` of dense matrices is true exactly when the shapes are equal and no difference of entries
exceeds the tolerance. -/
theorem C29_dense_iff [LinearOrder R] [AddGroup R] (tol : R) {A B : Dense R} {m n m' n' : Int} {f g : Int → Int → R}
    (hA : A.Is m n f) (hB : B.Is m' n' g) :
    ∃ b, A.eqTol tol B = .ok b ∧ (b = true ↔ (m = m' ∧ n = n') ∧
      ∀ i j, 0 ≤ i → i < m → 0 ≤ j → j < n → |f i j - g i j| ≤ tol) := by
  unfold Dense.eqTol
  by_cases h : m = m' ∧ n = n'
  · obtain ⟨rfl, rfl⟩ := h
    rw [if_neg (by rw [hA.rows_eq, hA.cols_eq, hB.rows_eq, hB.cols_eq]; simp), hA.rows_eq, hA.cols_eq]
    have hm := hA.wf.rows_nonneg
    have hn := hA.wf.cols_nonneg
    rw [hA.rows_eq] at hm
    rw [hA.cols_eq] at hn
    obtain ⟨b, h1, h2⟩ := forUp_inv (a := 0) (b := n) hn (f := fun j good =>
        forUp 0 m good (fun i good => do
          if good then
            let a ← A.get i j
            let b ← B.get i j
            .ok (!decide (|a - b| > tol))
          else .ok false))
      (fun k good => good = true ↔ ∀ i j, 0 ≤ i → i < m → 0 ≤ j → j < k → |f i j - g i j| ≤ tol)
      (s := true) (by simp only [true_iff]; intro i j _ _ _ _; omega) (by
        intro j good j0 j1 hI
        obtain ⟨b, h1, h2⟩ := forUp_inv (a := 0) (b := m) hm (f := fun i good => do
            if good then
              let a ← A.get i j
              let b ← B.get i j
              .ok (!decide (|a - b| > tol))
            else .ok false)
          (fun k good' => good' = true ↔ good = true ∧ ∀ i, 0 ≤ i → i < k → |f i j - g i j| ≤ tol)
          (s := good) (by
            constructor
            · intro h; exact ⟨h, fun i _ _ => by omega⟩
            · exact fun h => h.1) (by
            intro i good' i0 i1 hJ
            cases good' with
            | false =>
              refine ⟨false, by simp, ?_⟩
              constructor
              · intro h; cases h
              · intro h; exact hJ.mpr ⟨h.1, fun i' a b => h.2 i' a (by omega)⟩
            | true =>
              refine ⟨!decide (|f i j - g i j| > tol), ?_, ?_⟩
              · simp only [if_true]
                rw [hA.get_eq i j i0 i1 j0 j1, ok_bind, hB.get_eq i j i0 i1 j0 j1, ok_bind]
              · obtain ⟨g1, g2⟩ := hJ.mp rfl
                simp only [gt_iff_lt, Bool.not_eq_true', decide_eq_false_iff_not, not_lt]
                constructor
                · intro h
                  refine ⟨g1, fun i' a b => ?_⟩
                  by_cases hi : i' = i
                  · subst hi; exact h
                  · exact g2 i' a (by omega)
                · intro h; exact h.2 i i0 (by omega))
        refine ⟨b, h1, ?_⟩
        rw [h2, hI]
        constructor
        · rintro ⟨a, b⟩ i j' i0 i1 j0' j1'
          by_cases hj : j' = j
          · subst hj; exact b i i0 i1
          · exact a i j' i0 i1 j0' (by omega)
        · intro h
          exact ⟨fun i j' a b c d => h i j' a b c (by omega), fun i a b => h i j a b j0 (by omega)⟩)
    refine ⟨b, h1, ?_⟩
    rw [h2]
    simp
  · refine ⟨false, ?_, by simp [h]⟩
    rw [if_pos (by rw [hA.rows_eq, hA.cols_eq, hB.rows_eq, hB.cols_eq]; omega)]

/-- C29: tolerance 2. -/
example : Vec.eqTol (2 : Int) [1, 5] [3, 4] = .ok true ∧ Vec.eqTol (2 : Int) [1, 5] [4, 4] = .ok false := by decide

/-- C29: two matrices of equal shape. -/
example : Dense.eqTol (2 : Int) ⟨2, 1, [1, 5]⟩ ⟨2, 1, [3, 4]⟩ = .ok true ∧
    Dense.eqTol (2 : Int) ⟨2, 1, [1, 5]⟩ ⟨2, 1, [3, 8]⟩ = .ok false := by decide

/-! ## C30: reductions -/

theorem list_sum_vecAt [AddCommMonoid R] (l : List R) : l.sum = ∑ i ∈ Finset.Ico (0 : Int) l.length, vecAt l i := by
  conv_lhs => rw [eq_vecFn_vecAt l]
  rw [vecFn_iota, sum_iota]

theorem foldl_add_sum [AddMonoid R] {β : Type} (l : List β) (f : β → R) (c : R) :
    l.foldl (fun s b => s + f b) c = c + (l.map f).sum := by
  induction l generalizing c with
  | nil => simp
  | cons b l ih => rw [List.foldl_cons, ih, List.map_cons, List.sum_cons, add_assoc]

theorem Vec.sum_eq [AddCommMonoid R] (x : List R) : Vec.sum x = ∑ i ∈ Finset.Ico (0 : Int) x.length, vecAt x i := by
  unfold Vec.sum
  rw [foldl_add_sum x (fun a => a) 0, zero_add, List.map_id', list_sum_vecAt]

theorem zip_vecFn {N : Nat} (f g : Int → α) :
    (vecFn N f).zip (vecFn N g) = vecFn N (fun i => (f i, g i)) := by
  unfold vecFn
  rw [List.zip_map']

/-- **C30.**  `Sum` and `InnerProduct`. -/
theorem C30_sum_inner [NonUnitalNonAssocSemiring R] (x y : List R) :
    Vec.sum x = ∑ i ∈ Finset.Ico (0 : Int) x.length, vecAt x i ∧
    (x.length = y.length → Vec.inner x y = .ok (∑ i ∈ Finset.Ico (0 : Int) x.length, vecAt x i * vecAt y i)) ∧
    (x.length ≠ y.length → Vec.inner x y = .error .assertFail) := by
  refine ⟨Vec.sum_eq x, ?_, ?_⟩
  · intro h
    unfold Vec.inner
    rw [cassert_true h.symm, ok_bind, foldl_add_sum _ (fun p : R × R => p.1 * p.2), zero_add]
    congr 1
    have : (x.zip y) = vecFn x.length (fun i => (vecAt x i, vecAt y i)) := by
      rw [← zip_vecFn, ← eq_vecFn_vecAt x, h, ← eq_vecFn_vecAt y]
    rw [this, vecFn_iota, List.map_map, ← sum_iota]
    rfl
  · intro h
    unfold Vec.inner
    rw [cassert_false (fun e => h e.symm)]; rfl

theorem maxElement_spec [LinearOrder β'] (key : α → β') (less : α → α → Bool)
    (hl : ∀ a b, less a b = decide (key a < key b)) (a : α) (l : List α) :
    Vec.maxElement less a l ∈ a :: l ∧ ∀ b ∈ a :: l, key b ≤ key (Vec.maxElement less a l) := by
  unfold Vec.maxElement
  induction l generalizing a with
  | nil => simp
  | cons c l ih =>
    rw [List.foldl_cons]
    by_cases h : key a < key c
    · have e : less a c = true := by rw [hl]; simpa using h
      rw [if_pos e]
      obtain ⟨i1, i2⟩ := ih c
      refine ⟨List.mem_cons_of_mem _ i1, ?_⟩
      intro b hb
      rcases List.mem_cons.mp hb with rfl | hb
      · exact le_trans h.le (i2 c (by simp))
      · exact i2 b hb
    · have e : ¬ less a c = true := by rw [hl]; simpa using h
      rw [if_neg e]
      obtain ⟨i1, i2⟩ := ih a
      refine ⟨?_, ?_⟩
      · rcases List.mem_cons.mp i1 with h | h
        · rw [h]; simp
        · exact List.mem_cons_of_mem _ (List.mem_cons_of_mem _ h)
      · intro b hb
        rcases List.mem_cons.mp hb with rfl | hb
        · exact i2 b (by simp)
        · rcases List.mem_cons.mp hb with rfl | hb
          · exact le_trans (not_lt.mp h) (i2 a (by simp))
          · exact i2 b (List.mem_cons_of_mem _ hb)

theorem minElement_spec [LinearOrder β'] (key : α → β') (less : α → α → Bool)
    (hl : ∀ a b, less a b = decide (key a < key b)) (a : α) (l : List α) :
    Vec.minElement less a l ∈ a :: l ∧ ∀ b ∈ a :: l, key (Vec.minElement less a l) ≤ key b := by
  have := maxElement_spec (β' := β'ᵒᵈ) (fun a => OrderDual.toDual (key a)) (fun a b => less b a)
    (fun a b => by rw [hl]; rfl) a l
  exact this

/-- **C30.**  `Max` and `Min` return an element bounding all others, and reject the empty vector. -/
theorem C30_max_min [LinearOrder R] (x : List R) :
    (x ≠ [] → (∃ v, Vec.max x = .ok v ∧ v ∈ x ∧ ∀ a ∈ x, a ≤ v) ∧ (∃ v, Vec.min x = .ok v ∧ v ∈ x ∧ ∀ a ∈ x, v ≤ a)) ∧
    (x = [] → Vec.max x = .error .assertFail ∧ Vec.min x = .error .assertFail) := by
  refine ⟨fun h => ?_, fun h => by subst h; exact ⟨rfl, rfl⟩⟩
  cases x with
  | nil => exact absurd rfl h
  | cons a l =>
    obtain ⟨a1, a2⟩ := maxElement_spec (fun a : R => a) (fun a b => a < b) (fun _ _ => rfl) a l
    obtain ⟨b1, b2⟩ := minElement_spec (fun a : R => a) (fun a b => a < b) (fun _ _ => rfl) a l
    exact ⟨⟨_, rfl, a1, a2⟩, ⟨_, rfl, b1, b2⟩⟩

/-- **C30.**  `AbsMax` and `AbsMin` return the largest and smallest absolute value, and reject the empty vector. -/
theorem C30_absMax_absMin [LinearOrder R] [AddGroup R] (x : List R) :
    (x ≠ [] → (∃ v ∈ x, Vec.absMax x = .ok |v| ∧ ∀ a ∈ x, |a| ≤ |v|) ∧
      (∃ v ∈ x, Vec.absMin x = .ok |v| ∧ ∀ a ∈ x, |v| ≤ |a|)) ∧
    (x = [] → Vec.absMax x = .error .assertFail ∧ Vec.absMin x = .error .assertFail) := by
  refine ⟨fun h => ?_, fun h => by subst h; exact ⟨rfl, rfl⟩⟩
  cases x with
  | nil => exact absurd rfl h
  | cons a l =>
    obtain ⟨a1, a2⟩ := maxElement_spec (fun a : R => |a|) (fun a b => |a| < |b|) (fun _ _ => rfl) a l
    obtain ⟨b1, b2⟩ := minElement_spec (fun a : R => |a|) (fun a b => |a| < |b|) (fun _ _ => rfl) a l
    exact ⟨⟨_, a1, rfl, a2⟩, ⟨_, b1, rfl, b2⟩⟩

/-- **C30.**  `Mean` times the length is the sum; the empty vector divides by zero. -/
theorem C30_mean [Field R] [CharZero R] (x : List R) :
    (x ≠ [] → ∃ mu, Vec.mean x = .ok mu ∧ mu * (x.length : R) = ∑ i ∈ Finset.Ico (0 : Int) x.length, vecAt x i) ∧
    (x = [] → Vec.mean x = .error .divZero) := by
  refine ⟨fun h => ?_, fun h => by subst h; rfl⟩
  have hl : x.length ≠ 0 := by simpa using h
  refine ⟨Vec.sum x / (x.length : R), ?_, ?_⟩
  · unfold Vec.mean; rw [if_neg hl]
  · rw [div_mul_cancel₀ _ (by exact_mod_cast hl), Vec.sum_eq]

/-- C30: a concrete vector. -/
example : Vec.max [3, -7, (5 : Int)] = .ok 5 ∧ Vec.min [3, -7, (5 : Int)] = .ok (-7) ∧ Vec.absMax [3, -7, (5 : Int)] = .ok 7 ∧
    Vec.absMin [3, -7, (5 : Int)] = .ok 3 ∧ Vec.sum [3, -7, (5 : Int)] = 1 ∧
    Vec.inner [3, -7, (5 : Int)] [1, 1, 2] = .ok 6 := by decide

/-! ## C31: SubAvg and Normalize -/

theorem elems_eq [Zero R] (x : View) (m : List R) (hx : x.InMem m) :
    (iota x.size.toNat).mapM (fun i => rd m (x.off + i)) = .ok (vecFn x.size.toNat (fun i => vecAt m (x.off + i))) := by
  rw [vecFn_iota]
  apply mapM_ok
  intro i hi
  have h := mem_iota.mp hi
  have a := hx.off_nonneg
  have b := hx.fits
  exact rd_vecAt m (by omega) (by omega)

theorem Updates.length [Zero R] {x : View} {m m' : List R} {g : Int → R} (h : Updates x m m' g) :
    m'.length = m.length := by
  have := h.length_eq
  omega

theorem Updates.inside [Zero R] {x : View} {m m' : List R} {g : Int → R} (h : Updates x m m' g) (hx : x.InMem m)
    {i : Int} (h0 : 0 ≤ i) (h1 : i < x.size) : vecAt m' (x.off + i) = g i := by
  have a := hx.off_nonneg
  have b := hx.fits
  rw [h.vecAt_eq (by omega) (by omega)]
  rw [if_pos (by unfold View.Has; omega)]
  congr 1
  omega

theorem Updates.outside [Zero R] {x : View} {m m' : List R} {g : Int → R} (h : Updates x m m' g) {p : Int}
    (hp : ¬ x.Has p) : vecAt m' p = vecAt m p := by
  by_cases hr : 0 ≤ p ∧ p < m.length
  · rw [h.vecAt_eq hr.1 hr.2]
    rw [if_neg hp]
  · have e := h.length
    unfold vecAt
    split
    · simp only [List.getD_eq_getElem?_getD]
      rw [List.getElem?_eq_none (by omega), List.getElem?_eq_none (by omega)]
    · rfl

/-- **C31.**  After `SubAvg` the elements sum to zero, all differences are unchanged, and the rest of memory is
untouched. -/
theorem C31_subAvg [Field R] [CharZero R] (x : View) (m : List R) (hx : x.InMem m) (hs : 0 < x.size) :
    ∃ m', x.subAvg m = .ok m' ∧ m'.length = m.length ∧
      (∑ i ∈ Finset.Ico (0 : Int) x.size, vecAt m' (x.off + i)) = 0 ∧
      (∀ i j, 0 ≤ i → i < x.size → 0 ≤ j → j < x.size →
        vecAt m' (x.off + i) - vecAt m' (x.off + j) = vecAt m (x.off + i) - vecAt m (x.off + j)) ∧
      (∀ p, ¬ x.Has p → vecAt m' p = vecAt m p) := by
  have hl : (vecFn x.size.toNat (fun i => vecAt m (x.off + i))) ≠ [] := by
    intro h
    have := congrArg List.length h
    simp at this
    omega
  obtain ⟨mu, h1, h2⟩ := (C30_mean (vecFn x.size.toNat (fun i => vecAt m (x.off + i)))).1 hl
  obtain ⟨-, -, ⟨m', h3, h4⟩, -⟩ := C28_scalar x m hx mu
  refine ⟨m', ?_, h4.length, ?_, ?_, fun p hp => h4.outside hp⟩
  · unfold View.subAvg
    rw [elems_eq x m hx, ok_bind, h1, ok_bind, h3]
  · have e1 : ∑ i ∈ Finset.Ico (0 : Int) x.size, vecAt m' (x.off + i)
        = ∑ i ∈ Finset.Ico (0 : Int) x.size, (vecAt m (x.off + i) - mu) :=
      Finset.sum_congr rfl (fun i hi => h4.inside hx (Finset.mem_Ico.mp hi).1 (Finset.mem_Ico.mp hi).2)
    have e2 : ((x.size.toNat : Nat) : Int) = x.size := by omega
    rw [length_vecFn, e2] at h2
    have e3 : ∑ i ∈ Finset.Ico (0 : Int) x.size, vecAt (vecFn x.size.toNat (fun i => vecAt m (x.off + i))) i
        = ∑ i ∈ Finset.Ico (0 : Int) x.size, vecAt m (x.off + i) := by
      apply Finset.sum_congr rfl
      intro i hi
      have := Finset.mem_Ico.mp hi
      rw [(is_vecFn x.size.toNat (fun i => vecAt m (x.off + i))).vecAt_eq this.1 (by omega)]
    rw [e1, Finset.sum_sub_distrib, ← e3, ← h2, Finset.sum_const, Int.card_Ico]
    simp [mul_comm]
  · intro i j i0 i1 j0 j1
    rw [h4.inside hx i0 i1, h4.inside hx j0 j1]
    ring

/-- **C31.**  After `Normalize` the squares of the elements sum to one and each element is the original divided by the
norm, when the square root is exact on the sum of squares and that sum is not zero. -/
theorem C31_normalize [Field R] [DecidableEq R] (sqrt : R → R) (x : View) (m : List R) (hx : x.InMem m)
    (s : R) (hs : s = ∑ i ∈ Finset.Ico (0 : Int) x.size, vecAt m (x.off + i) * vecAt m (x.off + i))
    (hr : sqrt s * sqrt s = s) (hne : s ≠ 0) :
    ∃ m', x.normalize sqrt m = .ok m' ∧ m'.length = m.length ∧
      (∑ i ∈ Finset.Ico (0 : Int) x.size, vecAt m' (x.off + i) * vecAt m' (x.off + i)) = 1 ∧
      (∀ i, 0 ≤ i → i < x.size → vecAt m' (x.off + i) * sqrt s = vecAt m (x.off + i)) ∧
      (∀ p, ¬ x.Has p → vecAt m' p = vecAt m p) := by
  have hn : sqrt s ≠ 0 := by
    intro h
    rw [h, mul_zero] at hr
    exact hne hr.symm
  have hi : Vec.inner (vecFn x.size.toNat (fun i => vecAt m (x.off + i))) (vecFn x.size.toNat (fun i => vecAt m (x.off + i)))
      = .ok s := by
    rw [(C30_sum_inner _ _).2.1 rfl, hs, length_vecFn]
    have e2 : ((x.size.toNat : Nat) : Int) = x.size := by have := hx.size_nonneg; omega
    rw [e2]
    congr 1
    apply Finset.sum_congr rfl
    intro i hi
    have := Finset.mem_Ico.mp hi
    rw [(is_vecFn x.size.toNat (fun i => vecAt m (x.off + i))).vecAt_eq this.1 (by omega)]
  obtain ⟨m', h3, h4⟩ := (C28_divScalar x m hx (sqrt s)).1 hn
  refine ⟨m', ?_, h4.length, ?_, ?_, fun p hp => h4.outside hp⟩
  · unfold View.normalize Vec.l2Norm
    rw [elems_eq x m hx, ok_bind, hi]
    simp only [ok_bind]
    exact h3
  · have e1 : ∑ i ∈ Finset.Ico (0 : Int) x.size, vecAt m' (x.off + i) * vecAt m' (x.off + i)
        = ∑ i ∈ Finset.Ico (0 : Int) x.size, (vecAt m (x.off + i) * vecAt m (x.off + i)) / s := by
      apply Finset.sum_congr rfl
      intro i hi
      rw [h4.inside hx (Finset.mem_Ico.mp hi).1 (Finset.mem_Ico.mp hi).2, div_mul_div_comm, hr]
    rw [e1, ← Finset.sum_div, ← hs, div_self hne]
  · intro i i0 i1
    rw [h4.inside hx i0 i1, div_mul_cancel₀ _ hn]

/-- **C31.**  A vector of norm zero is rejected by `Normalize`, and an empty one by `SubAvg`. -/
theorem C31_rejects [Field R] [DecidableEq R] (sqrt : R → R) (x : View) (m : List R) (hx : x.InMem m) :
    (sqrt 0 = 0 → (∀ i, 0 ≤ i → i < x.size → vecAt m (x.off + i) = 0) → x.normalize sqrt m = .error .assertFail) ∧
    (x.size = 0 → x.subAvg m = .error .divZero) := by
  constructor
  · intro h0 hz
    have hi : Vec.inner (vecFn x.size.toNat (fun i => vecAt m (x.off + i)))
        (vecFn x.size.toNat (fun i => vecAt m (x.off + i))) = .ok 0 := by
      rw [(C30_sum_inner _ _).2.1 rfl, length_vecFn]
      congr 1
      apply Finset.sum_eq_zero
      intro i hi
      have := Finset.mem_Ico.mp hi
      rw [(is_vecFn x.size.toNat (fun i => vecAt m (x.off + i))).vecAt_eq this.1 (by omega),
        hz i this.1 (by omega), mul_zero]
    unfold View.normalize Vec.l2Norm
    rw [elems_eq x m hx, ok_bind, hi]
    simp only [ok_bind]
    exact (C28_divScalar x m hx (sqrt 0)).2 h0
  · intro hs
    unfold View.subAvg
    rw [elems_eq x m hx, ok_bind, hs]
    rfl

/-- C31: a vector whose sum of squares has an exact root, inside a larger memory. -/
example : ∃ (x : View) (m : List ℚ) (sqrt : ℚ → ℚ) (s : ℚ), x.InMem m ∧ 0 < x.size ∧
    s = (∑ i ∈ Finset.Ico (0 : Int) x.size, vecAt m (x.off + i) * vecAt m (x.off + i)) ∧ sqrt s * sqrt s = s ∧ s ≠ 0 :=
  ⟨⟨1, 2⟩, [7, 3, 4, 9], fun _ => 5, 25, ⟨by decide, by decide, by decide⟩, by decide, by
    rw [show Finset.Ico (0 : Int) 2 = {0, 1} from rfl]
    simp [vecAt]
    norm_num, by norm_num, by norm_num⟩

/-! ## C32: resizing and sub-vectors -/

/-- **C32.**  `SetSize(n, v)` makes the length `n`, keeps the first `min(n, old)` elements and fills the rest with `v`;
a negative size is rejected. -/
theorem C32_setSize (x : List α) (size : Int) (val : α) :
    (0 ≤ size → ∃ y, Vec.setSize x size val = .ok y ∧ (y.length : Int) = size ∧
      (∀ i, 0 ≤ i → i < size → i < x.length → rd y i = rd x i) ∧
      (∀ i, i < size → (x.length : Int) ≤ i → rd y i = .ok val)) ∧
    (size < 0 → Vec.setSize x size val = .error .assertFail) := by
  constructor
  · intro h
    obtain ⟨n, rfl⟩ := Int.eq_ofNat_of_zero_le h
    unfold Vec.setSize
    by_cases he : (n : Int) ≠ x.length
    · rw [if_pos he, cassert_true (by omega), ok_bind]
      refine ⟨_, rfl, ?_, ?_, ?_⟩
      · simp [resize]; omega
      · intro i i0 i1 i2
        obtain ⟨k, rfl⟩ := Int.eq_ofNat_of_zero_le i0
        rw [rd_nat (by simp [resize]; omega), rd_nat (by omega)]
        simp [resize]
        rw [List.getElem_append_left (by simp; omega)]
        simp
      · intro i i1 i2
        obtain ⟨k, rfl⟩ := Int.eq_ofNat_of_zero_le (show 0 ≤ i by omega)
        rw [rd_nat (by simp [resize]; omega)]
        simp [resize]
        rw [List.getElem_append_right (by simp; omega)]
        simp
    · rw [if_neg he]
      exact ⟨x, rfl, by omega, fun _ _ _ _ => rfl, fun i _ _ => by omega⟩
  · intro h
    unfold Vec.setSize
    rw [if_pos (by omega), cassert_false (by omega)]; rfl

/-- **C32.**  `GetSubVector` reads exactly the named positions, whatever the output held before. -/
theorem C32_getSubVector [Zero R] (x : List R) (indices : List Int) (out : List R) (h : ∀ k ∈ indices, 0 ≤ k ∧ k < x.length) :
    ∃ y, Vec.getSubVector x indices out = .ok y ∧ VecIs y indices.length (fun i => vecAt x (vecAt indices i)) := by
  refine ⟨vecFn indices.length (fun i => vecAt x (vecAt indices i)), ?_, is_vecFn _ _⟩
  obtain ⟨v, h1, h2, -, -⟩ := (C32_setSize out indices.length 0).1 (by omega)
  unfold Vec.getSubVector
  rw [h1, ok_bind]
  have hv : v = vecFn indices.length (vecAt v) := by
    have := eq_vecFn_vecAt v
    rwa [show v.length = indices.length by omega] at this
  rw [hv]
  apply fillLoop
  intro i f i0 i1 _
  have hk : 0 ≤ vecAt indices i ∧ vecAt indices i < x.length := by
    apply h
    rw [vecAt_int indices i0 i1]
    exact List.getElem_mem _
  rw [rd_vecAt indices i0 i1, ok_bind, cassert_true hk.1, cassert_true hk.2]
  simp only [ok_bind]
  rw [vrd_eq_rd hk.2, rd_vecAt x hk.1 hk.2, ok_bind, vwr_eq_wr (by simp; omega)]

/-- **C32.**  A position outside the vector is rejected. -/
theorem C32_getSubVector_rejects [Zero R] (x : List R) (indices : List Int) (out : List R)
    (h : ∃ k ∈ indices, ¬ (0 ≤ k ∧ k < x.length)) : Vec.getSubVector x indices out = .error .assertFail := by
  obtain ⟨v, h1, h2, -, -⟩ := (C32_setSize out indices.length 0).1 (by omega)
  unfold Vec.getSubVector
  rw [h1, ok_bind]
  apply forUp_fails (fun _ v => (v.length : Int) = indices.length)
    (fun i => 0 ≤ vecAt indices i ∧ vecAt indices i < x.length) .assertFail h2
  · intro i v i0 i1 hv hk
    rw [rd_vecAt indices i0 i1, ok_bind, cassert_true hk.1, cassert_true hk.2]
    simp only [ok_bind]
    rw [vrd_eq_rd hk.2, rd_vecAt x hk.1 hk.2, ok_bind, vwr_eq_wr (by omega)]
    obtain ⟨k, rfl⟩ := Int.eq_ofNat_of_zero_le i0
    rw [wr_nat (by omega)]
    exact ⟨_, rfl, by simpa using hv⟩
  · intro i v i0 i1 hv hk
    rw [rd_vecAt indices i0 i1, ok_bind]
    by_cases h0 : 0 ≤ vecAt indices i
    · rw [cassert_true h0, ok_bind, cassert_false (fun h => hk ⟨h0, h⟩)]; rfl
    · rw [cassert_false h0]; rfl
  · obtain ⟨k, hk, hb⟩ := h
    obtain ⟨i, hi, rfl⟩ := List.getElem_of_mem hk
    exact ⟨i, by omega, by omega, by rwa [vecAt_nat indices i hi]⟩

/-- C32: indices repeat and are unordered. -/
example : Vec.getSubVector [(5 : Int), 6, 7] [2, 0, 2] [1] = .ok [7, 5, 7] ∧ Vec.setSize [(5 : Int), 6] 3 9 = .ok [5, 6, 9] := by
  decide

end Linalg
