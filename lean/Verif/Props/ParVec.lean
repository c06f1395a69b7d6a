import Verif.Proof.ParVec
import Verif.Props.ParTranspose
import Verif.Props.SparseMore
import Verif.Props.SparseUpdate

/-!
# Distributed vectors: construction, reductions, products (C85 to C87)
-/

namespace Linalg
open Cpp

variable {α R : Type}

/-! ## C85: construction -/

/-- **C85.**  `ParVector(comm, vect, part)` accepts exactly the partitions of at least three elements whose first two bound a range of the
size of `vect` that starts before the end of all, and keeps the entries. -/
theorem C85_ofVect (vect : List α) (part : List Int) (v : ParVec α) :
    ParVec.ofVect vect part = .ok v ↔
      (3 ≤ part.length ∧ 0 ≤ vecAt part 0 ∧ vecAt part 0 + (vect.length : Int) = vecAt part 1 ∧ vecAt part 0 < vecAt part 2 ∧
        vecAt part 1 ≤ vecAt part 2) ∧ v = ⟨vect, part, vecAt part 2⟩ := by
  unfold ParVec.ofVect ParVec.init
  by_cases h2 : part.length ≥ 2
  swap
  · rw [cassert_false h2]
    constructor
    · intro h; cases h
    · rintro ⟨⟨h, -⟩, -⟩; omega
  rw [cassert_true h2, ok_bind, rd_vecAt part (by omega) (by omega), ok_bind]
  by_cases a0 : vecAt part 0 ≥ 0
  swap
  · rw [cassert_false a0]
    constructor
    · intro h; cases h
    · rintro ⟨⟨-, h, -⟩, -⟩; omega
  rw [cassert_true a0, ok_bind, rd_vecAt part (by omega) (by omega), ok_bind]
  by_cases a1 : vecAt part 1 ≥ 0
  swap
  · rw [cassert_false a1]
    constructor
    · intro h; cases h
    · rintro ⟨⟨-, h, h', -⟩, -⟩; omega
  rw [cassert_true a1, ok_bind]
  by_cases h3 : part.length ≥ 3
  swap
  · rw [rd_oob (by omega)]
    constructor
    · intro h; cases h
    · rintro ⟨⟨h, -⟩, -⟩; omega
  rw [rd_vecAt part (by omega) (by omega), ok_bind]
  by_cases a2 : (vect.length : Int) = vecAt part 1 - vecAt part 0
  swap
  · rw [cassert_false a2]
    constructor
    · intro h; cases h
    · rintro ⟨⟨-, -, h, -⟩, -⟩; omega
  rw [cassert_true a2, ok_bind]
  by_cases a3 : vecAt part 0 < vecAt part 2
  swap
  · rw [cassert_false a3]
    constructor
    · intro h; cases h
    · rintro ⟨⟨-, -, -, h, -⟩, -⟩; omega
  rw [cassert_true a3, ok_bind]
  by_cases a4 : vecAt part 1 ≤ vecAt part 2
  swap
  · rw [cassert_false a4]
    constructor
    · intro h; cases h
    · rintro ⟨⟨-, -, -, -, h⟩, -⟩; omega
  rw [cassert_true a4, ok_bind, cassert_true (by omega), ok_bind]
  constructor
  · intro h; cases h; exact ⟨⟨h3, a0, by omega, a3, a4⟩, rfl⟩
  · rintro ⟨-, rfl⟩; rfl

/-- **C85 (partial).**  On a process with a valid range that does not start at the very end, a vector of one value is built, of the size of
the range.  Missing: processes whose (empty) range starts at the end, see `C85_false`. -/
theorem C85_ofVal_partial (val : α) (part : List Int) (first last total : Int) (h : IsStarts part first last total) (hf : first < total) :
    ParVec.ofVal val part = .ok ⟨List.replicate (last - first).toNat val, part, total⟩ := by
  have hle := h.le
  have hv : vecAt part 0 = first ∧ vecAt part 1 = last ∧ vecAt part 2 = total := by rw [h.eq]; exact ⟨rfl, rfl, rfl⟩
  have hl : part.length = 3 := by rw [h.eq]; rfl
  unfold ParVec.ofVal
  rw [rd_vecAt part (by omega) (by omega), ok_bind, rd_vecAt part (by omega) (by omega), ok_bind, hv.1, hv.2.1]
  unfold mkVec
  rw [if_pos (by omega), ok_bind]
  have := (C85_ofVect (List.replicate (last - first).toNat val) part ⟨List.replicate (last - first).toNat val, part, vecAt part 2⟩).mpr
    ⟨⟨by omega, by rw [hv.1]; exact h.first_nonneg, by rw [hv.1, hv.2.1, List.length_replicate]; omega, by rw [hv.1, hv.2.2]; exact hf,
      by rw [hv.2.1, hv.2.2]; exact h.last_le⟩, rfl⟩
  rw [hv.2.2] at this
  exact this

/-- **C85.**  A process that owns nothing because the range starts at the end cannot build its share, although the range is valid: the
assertion is strict. -/
theorem C85_false : ∃ part, IsStarts part 2 2 2 ∧ ∀ val : Int, ParVec.ofVal val part = .error .assertFail :=
  ⟨[2, 2, 2], ⟨rfl, by decide, by decide, by decide⟩, fun _ => rfl⟩

/-- **C85.**  An empty range that starts earlier is accepted. -/
theorem C85_empty_inside : ∃ part, IsStarts part 1 1 2 ∧ ∀ val : Int, ParVec.ofVal val part = .ok ⟨[], part, 2⟩ :=
  ⟨[1, 1, 2], ⟨rfl, by decide, by decide, by decide⟩, fun _ => rfl⟩

/-- **C85.**  A partition of two elements passes the length assertion and is then read out of range. -/
theorem C85_short (vect : List α) (a b : Int) (ha : 0 ≤ a) (hb : 0 ≤ b) : ParVec.ofVect vect [a, b] = .error .outOfBounds := by
  unfold ParVec.ofVect ParVec.init
  rw [cassert_true (by simp), ok_bind]
  change (cassert (a ≥ 0) >>= _) = _
  rw [cassert_true ha, ok_bind]
  change (cassert (b ≥ 0) >>= _) = _
  rw [cassert_true hb, ok_bind]
  rfl

example : IsStarts [1, 3, 4] 1 3 4 ∧ ParVec.ofVal (5 : Int) [1, 3, 4] = .ok ⟨[5, 5], [1, 3, 4], 4⟩ ∧
    ParVec.ofVect [7, 8] [1, 3, 4] = .ok (⟨[7, 8], [1, 3, 4], 4⟩ : ParVec Int) :=
  ⟨⟨rfl, by decide, by decide, by decide⟩, by decide, by decide⟩

/-! ## C86: reductions -/

/-- **C86.**  `ParMult(comm, x, y)` for an `x` that is not a `ParVector`, and `x.Mult(y)` for a `ParVector`, return on every process the inner
product of the whole vectors. -/
theorem C86_inner [NonUnitalNonAssocSemiring R] (xs ys : List (List R)) (hl : xs.length = ys.length)
    (h : ∀ (p : Nat) (hp : p < xs.length), xs[p].length = (ys[p]'(by omega)).length) :
    Par.inner xs ys = .ok (List.replicate xs.length
      (∑ g ∈ Finset.Ico (0 : Int) xs.flatten.length, Par.globalVec xs g * Par.globalVec ys g)) := by
  have hp : ∀ p ∈ xs.zip ys, p.1.length = p.2.length := by
    intro p hp
    obtain ⟨k, hk, rfl⟩ := List.getElem_of_mem hp
    rw [List.getElem_zip]
    exact h k (by rw [List.length_zip] at hk; omega)
  unfold Par.inner
  rw [mapM_ok (xs.zip ys) _ (fun p => (List.zipWith (· * ·) p.1 p.2).sum) (fun p hm => Par.Vec_inner_ok _ _ (hp p hm)), ok_bind,
    Par.mpiAllreduceSum_eq, Par.sum_flatten_zipWith _ hp, List.map_fst_zip (by omega), List.map_snd_zip (by omega), List.length_map,
    List.length_zip, ← hl, Nat.min_self]
  have hf : xs.flatten.length = ys.flatten.length := by
    rw [List.length_flatten, List.length_flatten]
    congr 1
    refine List.ext_getElem (by simpa using hl) (fun k h1 h2 => ?_)
    rw [List.getElem_map, List.getElem_map]
    exact h k (by simpa using h1)
  have e1 := (C30_sum_inner xs.flatten ys.flatten).2.1 hf
  rw [Par.Vec_inner_ok _ _ hf] at e1
  injection e1 with e1
  rw [e1]
  rfl

/-- **C86.**  Shares of different sizes on some process are rejected. -/
theorem C86_inner_rejects [Zero R] [Add R] [Mul R] (xs ys : List (List R)) (hl : xs.length = ys.length) (p : Nat) (hp : p < xs.length)
    (h : xs[p].length ≠ (ys[p]'(by omega)).length) : Par.inner xs ys = .error .assertFail := by
  unfold Par.inner
  have key : ∀ (l : List (List R × List R)) (q : List R × List R), q ∈ l → q.1.length ≠ q.2.length →
      l.mapM (fun p => Vec.inner p.1 p.2) = .error .assertFail := by
    intro l q hq hne
    induction l with
    | nil => simp at hq
    | cons a l ih =>
      rw [List.mapM_cons]
      by_cases ha : a.2.length = a.1.length
      · have hq' : q ∈ l := by
          rcases List.mem_cons.mp hq with rfl | h
          · exact absurd ha.symm hne
          · exact h
        unfold Vec.inner at ih ⊢
        rw [cassert_true ha, ok_bind, ok_bind, ih hq']
        rfl
      · unfold Vec.inner
        rw [cassert_false ha]
        rfl
  rw [key _ (xs[p], ys[p]'(by omega)) (by
    rw [List.mem_iff_getElem]
    exact ⟨p, by rw [List.length_zip]; omega, by rw [List.getElem_zip]⟩) h]
  rfl

/-- **C86.**  `ParL2Norm(comm, x)` for an `x` that is not a `ParVector`, and `x.L2Norm()` for a `ParVector`, return on every process the square
root of the sum of all squares. -/
theorem C86_l2Norm [NonUnitalNonAssocSemiring R] (sqrt : R → R) (xs : List (List R)) :
    Par.l2Norm sqrt xs = .ok (List.replicate xs.length
      (sqrt (∑ g ∈ Finset.Ico (0 : Int) xs.flatten.length, Par.globalVec xs g * Par.globalVec xs g))) := by
  unfold Par.l2Norm
  rw [C86_inner xs xs rfl (fun _ _ => rfl), ok_bind, List.map_replicate]

/-- **C86.**  `GlobalSum()` returns on every process the sum of all entries of all processes. -/
theorem C86_globalSum [AddCommMonoid R] (vs : List (ParVec R)) :
    Par.globalSum vs = List.replicate vs.length
      (∑ g ∈ Finset.Ico (0 : Int) (vs.map ParVec.data).flatten.length, Par.globalVec (vs.map ParVec.data) g) := by
  unfold Par.globalSum
  rw [Par.mpiAllreduceSum_eq, List.length_map]
  congr 1
  have : (vs.map ParVec.localSum) = (vs.map ParVec.data).map List.sum := by
    rw [List.map_map]
    apply List.map_congr_left
    intro v _
    exact Par.Vec_sum_list v.data
  rw [this, ← List.sum_flatten]
  exact list_sum_vecAt _

/-- **C86.**  `SubAvg`: afterwards the entries of all processes sum to zero, all differences between entries are unchanged, and so are the
sizes and partitions. -/
theorem C86_subAvg [Field R] [CharZero R] (vs : List (ParVec R)) (o : List Int) (h : Par.IsVecs vs o) (hne : 0 < vecAt o vs.length) :
    ∃ ws, Par.subAvg vs = .ok ws ∧ ws.length = vs.length ∧ Par.IsVecs ws o ∧
      (∑ g ∈ Finset.Ico (0 : Int) (vecAt o vs.length), Par.globalVec (ws.map ParVec.data) g) = 0 ∧
      ∀ g g', 0 ≤ g → g < vecAt o vs.length → 0 ≤ g' → g' < vecAt o vs.length →
        Par.globalVec (ws.map ParVec.data) g - Par.globalVec (ws.map ParVec.data) g'
          = Par.globalVec (vs.map ParVec.data) g - Par.globalVec (vs.map ParVec.data) g' := by
  have hsh := h.shares
  have htot : vecAt o vs.length = ((vs.map ParVec.data).flatten.length : Int) := by
    have := hsh.total
    rwa [List.length_map] at this
  generalize hs : (∑ g ∈ Finset.Ico (0 : Int) (vs.map ParVec.data).flatten.length, Par.globalVec (vs.map ParVec.data) g) = s
  have hgs := C86_globalSum vs
  rw [hs] at hgs
  generalize hmu : s / ((vecAt o vs.length : Int) : R) = mu
  have hw : Par.subAvg vs = .ok (vs.map (fun v => v.subScalar mu)) := by
    unfold Par.subAvg
    rw [hgs]
    rw [mapM_ok (vs.zip (List.replicate vs.length s)) _ (fun p => p.1.subScalar mu)]
    · congr 1
      conv_rhs => rw [← List.map_fst_zip (l₁ := vs) (l₂ := List.replicate vs.length s) (by simp), List.map_map]
      rfl
    · intro p hp
      obtain ⟨k, hk, rfl⟩ := List.getElem_of_mem hp
      rw [List.getElem_zip]
      have hk' : k < vs.length := by rw [List.length_zip] at hk; omega
      have ht := h.total k hk'
      rw [List.getElem_replicate]
      dsimp only
      rw [ht, if_neg (by omega), hmu]
  have hd : (vs.map (fun v => v.subScalar mu)).map ParVec.data = (vs.map ParVec.data).map (fun x => x.map (fun a => a - mu)) := by
    rw [List.map_map, List.map_map]
    rfl
  have hgv : ∀ g, 0 ≤ g → g < vecAt o vs.length → Par.globalVec ((vs.map (fun v => v.subScalar mu)).map ParVec.data) g
      = Par.globalVec (vs.map ParVec.data) g - mu := by
    intro g g0 g1
    rw [htot] at g1
    rw [hd]
    unfold Par.globalVec
    rw [← List.map_flatten]
    obtain ⟨k, rfl⟩ := Int.eq_ofNat_of_zero_le g0
    rw [vecAt_nat _ _ (by rw [List.length_map]; omega), vecAt_nat _ _ (by omega), List.getElem_map]
  refine ⟨_, hw, by simp, ⟨⟨?_, hsh.first, ?_⟩, ?_, ?_⟩, ?_, ?_⟩
  · rw [hd, List.length_map]; exact hsh.len
  · intro p hp
    simp only [hd, List.getElem_map, List.length_map]
    have := hsh.share p (by simpa using hp)
    rwa [List.getElem_map] at this
  · intro p hp
    have := h.part p (by simpa using hp)
    simpa [ParVec.subScalar] using this
  · intro p hp
    have := h.total p (by simpa using hp)
    simpa [ParVec.subScalar] using this
  · have e : ∑ g ∈ Finset.Ico (0 : Int) (vecAt o vs.length), Par.globalVec ((vs.map (fun v => v.subScalar mu)).map ParVec.data) g
        = ∑ g ∈ Finset.Ico (0 : Int) (vecAt o vs.length), (Par.globalVec (vs.map ParVec.data) g - mu) :=
      Finset.sum_congr rfl (fun g hg => hgv g (Finset.mem_Ico.mp hg).1 (Finset.mem_Ico.mp hg).2)
    rw [e, Finset.sum_sub_distrib, htot, hs, Finset.sum_const, Int.card_Ico, ← hmu, htot]
    have hnz : (((vs.map ParVec.data).flatten.length : Nat) : R) ≠ 0 := by
      rw [Nat.cast_ne_zero]
      omega
    simp only [sub_zero, Int.toNat_natCast, nsmul_eq_mul, Int.cast_natCast]
    rw [mul_div_cancel₀ _ hnz, sub_self]
  · intro g g' g0 g1 g0' g1'
    rw [hgv g g0 g1, hgv g' g0' g1']
    ring

namespace Par

theorem globalVec_nil [Zero R] (g : Int) : globalVec ([] : List (List R)) g = 0 := by
  unfold globalVec vecAt
  simp

theorem flatten_zipWith (F : R → R → R) : ∀ (xs ys : List (List R)), xs.length = ys.length →
    (∀ (p : Nat) (hx : p < xs.length) (hy : p < ys.length), xs[p].length = ys[p].length) →
    (List.zipWith (List.zipWith F) xs ys).flatten = List.zipWith F xs.flatten ys.flatten
  | [], [], _, _ => rfl
  | x :: xs, y :: ys, hl, h => by
    have h0 := h 0 (by simp) (by simp)
    rw [List.zipWith_cons_cons, List.flatten_cons, List.flatten_cons, List.flatten_cons, List.zipWith_append (by simpa using h0),
      flatten_zipWith F xs ys (by simpa using hl) (fun p hx hy => h (p + 1) (by simpa using hx) (by simpa using hy))]

/-- An entrywise update of every share, when the shares have the same sizes. -/
theorem update_vecs [Zero R] (F : R → R → R) (op : ParVec R → ParVec R → Res (ParVec R)) (vs ws : List (ParVec R)) (o : List Int)
    (hv : IsVecs vs o) (hw : IsVecs ws o)
    (hop : ∀ v ∈ vs, ∀ w ∈ ws, v.data.length = w.data.length → op v w = .ok { v with data := List.zipWith F v.data w.data }) :
    ∃ zs, (vs.zip ws).mapM (fun p => op p.1 p.2) = .ok zs ∧ zs.length = vs.length ∧ IsVecs zs o ∧
      ∀ g, 0 ≤ g → g < vecAt o vs.length →
        globalVec (zs.map ParVec.data) g = F (globalVec (vs.map ParVec.data) g) (globalVec (ws.map ParVec.data) g) := by
  have hl : vs.length = ws.length := by
    have h1 := hv.shares.len
    have h2 := hw.shares.len
    rw [List.length_map] at h1 h2
    omega
  have hs : ∀ (p : Nat) (h1 : p < vs.length) (h2 : p < ws.length), vs[p].data.length = ws[p].data.length := by
    intro p h1 h2
    have e1 := hv.shares.share p (by simpa using h1)
    have e2 := hw.shares.share p (by simpa using h2)
    rw [List.getElem_map] at e1 e2
    omega
  have hz : (vs.zip ws).map (fun p => ({ p.1 with data := List.zipWith F p.1.data p.2.data } : ParVec R))
      = List.zipWith (fun v w => ({ v with data := List.zipWith F v.data w.data } : ParVec R)) vs ws := by
    rw [List.zip, List.map_zipWith]
  have hd : (List.zipWith (fun v w => ({ v with data := List.zipWith F v.data w.data } : ParVec R)) vs ws).map ParVec.data
      = List.zipWith (List.zipWith F) (vs.map ParVec.data) (ws.map ParVec.data) := by
    rw [List.map_zipWith, List.zipWith_map]
  have hs' : ∀ (p : Nat) (hx : p < (vs.map ParVec.data).length) (hy : p < (ws.map ParVec.data).length),
      (vs.map ParVec.data)[p].length = (ws.map ParVec.data)[p].length := by
    intro p hx hy
    rw [List.getElem_map, List.getElem_map]
    exact hs p (by simpa using hx) (by simpa using hy)
  refine ⟨List.zipWith (fun v w => ({ v with data := List.zipWith F v.data w.data } : ParVec R)) vs ws, ?_, ?_,
    ⟨⟨?_, hv.shares.first, ?_⟩, ?_, ?_⟩, ?_⟩
  · rw [← hz]
    apply mapM_ok
    intro p hp
    obtain ⟨k, hk, rfl⟩ := List.getElem_of_mem hp
    rw [List.length_zip] at hk
    rw [List.getElem_zip]
    exact hop _ (List.getElem_mem _) _ (List.getElem_mem _) (hs k (by omega) (by omega))
  · rw [List.length_zipWith]; omega
  · have := hv.shares.len
    simp only [List.length_map, List.length_zipWith] at this ⊢
    omega
  · intro p hp
    simp only [List.length_map, List.length_zipWith] at hp
    have h1 := hs p (by omega) (by omega)
    have h2 := hv.shares.share p (by simp; omega)
    simp only [List.getElem_map] at h2
    simp only [List.getElem_map, List.getElem_zipWith, List.length_zipWith]
    rw [← h2]
    omega
  · intro p hp
    rw [List.length_zipWith] at hp
    have := hv.part p (by omega)
    rw [List.getElem_zipWith, List.length_zipWith, ← hl, Nat.min_self]
    exact this
  · intro p hp
    rw [List.length_zipWith] at hp
    have := hv.total p (by omega)
    rw [List.getElem_zipWith, List.length_zipWith, ← hl, Nat.min_self]
    exact this
  · intro g g0 g1
    have t1 := hv.shares.total
    have t2 := hw.shares.total
    rw [List.length_map] at t1 t2
    rw [← hl] at t2
    rw [hd]
    unfold globalVec
    rw [flatten_zipWith F _ _ (by simpa using hl) hs']
    obtain ⟨k, rfl⟩ := Int.eq_ofNat_of_zero_le g0
    rw [vecAt_nat _ _ (by rw [List.length_zipWith]; omega), vecAt_nat _ _ (by omega), vecAt_nat _ _ (by omega), List.getElem_zipWith]

end Par

/-- **C86.**  `x += y`, `x -= y` and `x *= y` on every process update the whole vector entry by entry and keep its distribution. -/
theorem C86_updates [Ring R] (vs ws : List (ParVec R)) (o : List Int) (hv : Par.IsVecs vs o) (hw : Par.IsVecs ws o) :
    (∃ zs, (vs.zip ws).mapM (fun p => p.1.addAssign p.2) = .ok zs ∧ zs.length = vs.length ∧ Par.IsVecs zs o ∧
      ∀ g, 0 ≤ g → g < vecAt o vs.length →
        Par.globalVec (zs.map ParVec.data) g = Par.globalVec (vs.map ParVec.data) g + Par.globalVec (ws.map ParVec.data) g) ∧
    (∃ zs, (vs.zip ws).mapM (fun p => p.1.subAssign p.2) = .ok zs ∧ zs.length = vs.length ∧ Par.IsVecs zs o ∧
      ∀ g, 0 ≤ g → g < vecAt o vs.length →
        Par.globalVec (zs.map ParVec.data) g = Par.globalVec (vs.map ParVec.data) g - Par.globalVec (ws.map ParVec.data) g) ∧
    (∃ zs, (vs.zip ws).mapM (fun p => p.1.mulAssign p.2) = .ok zs ∧ zs.length = vs.length ∧ Par.IsVecs zs o ∧
      ∀ g, 0 ≤ g → g < vecAt o vs.length →
        Par.globalVec (zs.map ParVec.data) g = Par.globalVec (vs.map ParVec.data) g * Par.globalVec (ws.map ParVec.data) g) := by
  refine ⟨Par.update_vecs (· + ·) _ vs ws o hv hw ?_, Par.update_vecs (· - ·) _ vs ws o hv hw ?_,
    Par.update_vecs (· * ·) _ vs ws o hv hw ?_⟩
  · intro v _ w _ h
    unfold ParVec.addAssign
    rw [cassert_true h, ok_bind]
  · intro v _ w _ h
    unfold ParVec.subAssign
    rw [cassert_true h, ok_bind]
  · intro v _ w _ h
    unfold ParVec.mulAssign
    rw [cassert_true h, ok_bind]

/-- **C86.**  `x /= y` does so when `y` has no zero entry. -/
theorem C86_divide [Field R] [DecidableEq R] (vs ws : List (ParVec R)) (o : List Int) (hv : Par.IsVecs vs o) (hw : Par.IsVecs ws o)
    (h0 : ∀ w ∈ ws, ∀ x ∈ w.data, x ≠ 0) :
    ∃ zs, (vs.zip ws).mapM (fun p => p.1.divAssign p.2) = .ok zs ∧ zs.length = vs.length ∧ Par.IsVecs zs o ∧
      ∀ g, 0 ≤ g → g < vecAt o vs.length →
        Par.globalVec (zs.map ParVec.data) g = Par.globalVec (vs.map ParVec.data) g / Par.globalVec (ws.map ParVec.data) g := by
  refine Par.update_vecs (· / ·) _ vs ws o hv hw ?_
  intro v _ w hm h
  unfold ParVec.divAssign
  rw [cassert_true h, ok_bind, cassert_true (h0 w hm), ok_bind]

/-- **C86.**  Shares of different sizes are rejected by all of them, and a zero divisor by `/=`. -/
theorem C86_updates_reject [Field R] [DecidableEq R] (v w : ParVec R) :
    (v.data.length ≠ w.data.length → v.addAssign w = .error .assertFail ∧ v.subAssign w = .error .assertFail ∧
      v.mulAssign w = .error .assertFail ∧ v.divAssign w = .error .assertFail) ∧
    ((0 : R) ∈ w.data → v.divAssign w = .error .assertFail) := by
  constructor
  · intro h
    refine ⟨?_, ?_, ?_, ?_⟩
    · unfold ParVec.addAssign; rw [cassert_false h]; rfl
    · unfold ParVec.subAssign; rw [cassert_false h]; rfl
    · unfold ParVec.mulAssign; rw [cassert_false h]; rfl
    · unfold ParVec.divAssign; rw [cassert_false h]; rfl
  · intro h
    unfold ParVec.divAssign
    by_cases hl : v.data.length = w.data.length
    · rw [cassert_true hl, ok_bind, cassert_false (fun hh => hh 0 h rfl)]; rfl
    · rw [cassert_false hl]; rfl

/-- **C86.**  `x = val` makes every entry of the whole vector `val` and keeps its distribution. -/
theorem C86_fill [Zero R] (vs : List (ParVec R)) (o : List Int) (hv : Par.IsVecs vs o) (val : R) :
    Par.IsVecs (vs.map (fun v => v.fill val)) o ∧
      ∀ g, 0 ≤ g → g < vecAt o vs.length → Par.globalVec ((vs.map (fun v => v.fill val)).map ParVec.data) g = val := by
  have hd : (vs.map (fun v => v.fill val)).map ParVec.data = (vs.map ParVec.data).map (fun x => x.map (fun _ => val)) := by
    rw [List.map_map, List.map_map]
    rfl
  refine ⟨⟨⟨?_, hv.shares.first, ?_⟩, ?_, ?_⟩, ?_⟩
  · rw [hd, List.length_map]; exact hv.shares.len
  · intro p hp
    simp only [hd, List.getElem_map, List.length_map]
    have := hv.shares.share p (by simpa using hp)
    rwa [List.getElem_map] at this
  · intro p hp
    have := hv.part p (by simpa using hp)
    simpa [ParVec.fill] using this
  · intro p hp
    have := hv.total p (by simpa using hp)
    simpa [ParVec.fill] using this
  · intro g g0 g1
    have t := hv.shares.total
    rw [List.length_map] at t
    rw [hd]
    unfold Par.globalVec
    rw [← List.map_flatten]
    obtain ⟨k, rfl⟩ := Int.eq_ofNat_of_zero_le g0
    rw [vecAt_nat _ _ (by rw [List.length_map]; omega), List.getElem_map]

namespace Par
def exV : List (ParVec Rat) := [⟨[1, 2], [0, 2, 3], 3⟩, ⟨[6], [2, 3, 3], 3⟩]
end Par

example : Par.IsVecs Par.exV [0, 2, 3] ∧ (0 : Int) < vecAt [0, 2, 3] Par.exV.length ∧ Par.globalSum Par.exV = [9, 9] ∧
    Par.subAvg Par.exV = .ok [⟨[-2, -1], [0, 2, 3], 3⟩, ⟨[3], [2, 3, 3], 3⟩] ∧
    Par.inner [[1, 2], [6]] [[1, 1], [(2 : Rat)]] = .ok [15, 15] := by
  refine ⟨⟨⟨rfl, rfl, ?_⟩, ?_, ?_⟩, by decide, by decide +kernel, by decide +kernel, by decide +kernel⟩ <;>
  · intro p hp
    have hp : p < 2 := hp
    rcases (by omega : p = 0 ∨ p = 1) with rfl | rfl <;> rfl

/-- `C86_updates` and `C86_divide` apply to the vector and itself. -/
example : Par.IsVecs Par.exV [0, 2, 3] ∧ (∀ w ∈ Par.exV, ∀ x ∈ w.data, x ≠ 0) ∧
    (Par.exV.zip Par.exV).mapM (fun p => p.1.divAssign p.2) = .ok [⟨[1, 1], [0, 2, 3], 3⟩, ⟨[1], [2, 3, 3], 3⟩] := by
  refine ⟨⟨⟨rfl, rfl, ?_⟩, ?_, ?_⟩, by decide +kernel, by decide +kernel⟩ <;>
  · intro p hp
    have hp : p < 2 := hp
    rcases (by omega : p = 0 ∨ p = 1) with rfl | rfl <;> rfl

end Linalg
