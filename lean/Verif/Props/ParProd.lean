import Verif.Props.ParVec

/-!
# Products of a distributed matrix and a distributed vector, and updates in place (C87, C88)
-/

namespace Linalg
open Cpp

variable {α R : Type}

namespace Par

theorem mapM_unit_ok {β : Type} (l : List β) (f : β → Res Unit) (h : ∀ b ∈ l, f b = .ok ()) : l.mapM f = .ok (l.map (fun _ => ())) :=
  mapM_ok l f (fun _ => ()) h

theorem mapM_fail {β γ : Type} (l : List β) (f : β → Res γ) (h : ∀ b ∈ l, (∃ c, f b = .ok c) ∨ f b = .error .assertFail) (b : β) (hb : b ∈ l)
    (hf : f b = .error .assertFail) : l.mapM f = .error .assertFail := by
  induction l with
  | nil => simp at hb
  | cons a l ih =>
    rw [List.mapM_cons]
    rcases h a (by simp) with ⟨c, hc⟩ | hc
    · have hb' : b ∈ l := by
        rcases List.mem_cons.mp hb with rfl | h'
        · rw [hc] at hf; cases hf
        · exact h'
      rw [hc, ok_bind, ih (fun x hx => h x (by simp [hx])) hb']
      rfl
    · rw [hc]; rfl

theorem multCheck_ok (M : ParMat α) {a b : Int} (h1 : a = M.diag.cols) (h2 : b = M.diag.rows) : M.multCheck a b = .ok () := by
  unfold ParMat.multCheck
  rw [cassert_true h1, cassert_true h2]
  rfl

theorem multATCheck_ok (M : ParMat α) {a b : Int} (h1 : a = M.diag.rows) (h2 : b = M.diag.cols) : M.multATCheck a b = .ok () := by
  unfold ParMat.multATCheck
  rw [cassert_true h1, cassert_true h2]
  rfl

theorem mem_zip_share {β γ : Type} {xs : List β} {ys : List γ} (hl : xs.length = ys.length) {p : β × γ} (h : p ∈ xs.zip ys) :
    ∃ (k : Nat) (hk : k < xs.length), p = (xs[k], ys[k]'(by omega)) := by
  obtain ⟨k, hk, rfl⟩ := List.getElem_of_mem h
  have hk' : k < xs.length := by rw [List.length_zip] at hk; omega
  exact ⟨k, hk', by rw [List.getElem_zip]⟩

end Par

/-! ## C87: products -/

/-- **C87.**  `Mult(x)` on all processes, for a vector distributed like the columns: the product of the whole matrix and the whole vector,
distributed like the rows. -/
theorem C87_mult [NonUnitalNonAssocSemiring R] (mv : Par.Matvec R) (hmv : Par.IsMatvec mv) (Ms : List (ParMat R)) (ro co : List Int)
    (hM : Par.IsDist Ms ro co) (xs : List (List R)) (hl : xs.length = Ms.length) (hx : Par.IsShares xs co) :
    ∃ ys, Par.mult mv Ms xs = .ok ys ∧ ys.length = Ms.length ∧ Par.IsShares ys ro ∧
      ∀ g, 0 ≤ g → g < vecAt ro Ms.length →
        Par.globalVec ys g = ∑ c ∈ Finset.Ico (0 : Int) (vecAt co Ms.length), Par.globalCoef Ms g c * Par.globalVec xs c := by
  obtain ⟨h1, h2, h3⟩ := hmv Ms ro co hM xs hl hx
  refine ⟨mv Ms xs, ?_, h1, h2, h3⟩
  unfold Par.mult
  rw [Par.mapM_unit_ok]
  · rfl
  · intro p hp
    obtain ⟨k, hk, rfl⟩ := Par.mem_zip_share hl.symm hp
    have := hx.share k (by omega)
    exact Par.multCheck_ok _ (by rw [(hM.share k hk).diag_cols]; exact this) rfl

/-- **C87.**  `MultAT(x)` on all processes, for a vector distributed like the rows: the product of the transposed matrix and the whole
vector, distributed like the columns. -/
theorem C87_multAT [NonUnitalNonAssocSemiring R] (mvT : Par.Matvec R) (hmv : Par.IsMatvecT mvT) (Ms : List (ParMat R)) (ro co : List Int)
    (hM : Par.IsDist Ms ro co) (xs : List (List R)) (hl : xs.length = Ms.length) (hx : Par.IsShares xs ro) :
    ∃ ys, Par.multAT mvT Ms xs = .ok ys ∧ ys.length = Ms.length ∧ Par.IsShares ys co ∧
      ∀ c, 0 ≤ c → c < vecAt co Ms.length →
        Par.globalVec ys c = ∑ g ∈ Finset.Ico (0 : Int) (vecAt ro Ms.length), Par.globalCoef Ms g c * Par.globalVec xs g := by
  obtain ⟨h1, h2, h3⟩ := hmv Ms ro co hM xs hl hx
  refine ⟨mvT Ms xs, ?_, h1, h2, h3⟩
  unfold Par.multAT
  rw [Par.mapM_unit_ok]
  · rfl
  · intro p hp
    obtain ⟨k, hk, rfl⟩ := Par.mem_zip_share hl.symm hp
    have := hx.share k (by omega)
    exact Par.multATCheck_ok _ (by rw [(hM.share k hk).diag_rows]; exact this) rfl

/-- **C87.**  A share of the wrong size on some process is rejected. -/
theorem C87_rejects (mv : Par.Matvec R) (Ms : List (ParMat R)) (xs : List (List R)) (hl : xs.length = Ms.length) (p : Nat)
    (hp : p < Ms.length) :
    (((xs[p]'(by omega)).length : Int) ≠ Ms[p].diag.cols → Par.mult mv Ms xs = .error .assertFail) ∧
    (((xs[p]'(by omega)).length : Int) ≠ Ms[p].diag.rows → Par.multAT mv Ms xs = .error .assertFail) := by
  have hm : (Ms[p], xs[p]'(by omega)) ∈ Ms.zip xs := by
    rw [List.mem_iff_getElem]
    exact ⟨p, by rw [List.length_zip]; omega, by rw [List.getElem_zip]⟩
  constructor
  · intro h
    unfold Par.mult
    rw [Par.mapM_fail (Ms.zip xs) _ ?_ _ hm ?_]
    · rfl
    · intro b _
      by_cases hb : (b.2.length : Int) = b.1.diag.cols
      · exact Or.inl ⟨(), Par.multCheck_ok _ hb rfl⟩
      · right
        unfold ParMat.multCheck
        rw [cassert_false hb]
        rfl
    · unfold ParMat.multCheck
      rw [cassert_false h]
      rfl
  · intro h
    unfold Par.multAT
    rw [Par.mapM_fail (Ms.zip xs) _ ?_ _ hm ?_]
    · rfl
    · intro b _
      by_cases hb : (b.2.length : Int) = b.1.diag.rows
      · exact Or.inl ⟨(), Par.multATCheck_ok _ hb rfl⟩
      · right
        unfold ParMat.multATCheck
        rw [cassert_false hb]
        rfl
    · unfold ParMat.multATCheck
      rw [cassert_false h]
      rfl

namespace Par

theorem inner_shares [NonUnitalNonAssocSemiring R] {xs ys : List (List R)} {o : List Int} (hx : IsShares xs o) (hy : IsShares ys o) :
    Par.inner xs ys = .ok (List.replicate xs.length
      (∑ g ∈ Finset.Ico (0 : Int) (vecAt o xs.length), Par.globalVec xs g * Par.globalVec ys g)) := by
  have hl : xs.length = ys.length := by have := hx.len; have := hy.len; omega
  rw [C86_inner xs ys hl (fun p hp => by
    have h1 := hx.share p hp
    have h2 := hy.share p (by omega)
    omega), hx.total]

end Par

/-- **C87.**  `(A x) · y = x · (Aᵀ y)`, where all three operations are the distributed ones. -/
theorem C87_adjoint [CommSemiring R] (mv mvT : Par.Matvec R) (hmv : Par.IsMatvec mv) (hmvT : Par.IsMatvecT mvT) (Ms : List (ParMat R))
    (ro co : List Int) (hM : Par.IsDist Ms ro co) (xs ys : List (List R)) (hlx : xs.length = Ms.length) (hly : ys.length = Ms.length)
    (hx : Par.IsShares xs co) (hy : Par.IsShares ys ro) :
    ∃ s, (do let ax ← Par.mult mv Ms xs; Par.inner ax ys) = .ok s ∧ (do let aty ← Par.multAT mvT Ms ys; Par.inner xs aty) = .ok s := by
  obtain ⟨ax, a1, a2, a3, a4⟩ := C87_mult mv hmv Ms ro co hM xs hlx hx
  obtain ⟨ty, b1, b2, b3, b4⟩ := C87_multAT mvT hmvT Ms ro co hM ys hly hy
  rw [a1, b1, ok_bind, ok_bind, Par.inner_shares a3 hy, Par.inner_shares hx b3]
  refine ⟨_, rfl, ?_⟩
  rw [a2, hlx]
  congr 2
  have e1 : ∀ g ∈ Finset.Ico (0 : Int) (vecAt ro Ms.length), Par.globalVec ax g * Par.globalVec ys g
      = ∑ c ∈ Finset.Ico (0 : Int) (vecAt co Ms.length), Par.globalCoef Ms g c * Par.globalVec xs c * Par.globalVec ys g := by
    intro g hg
    rw [a4 g (Finset.mem_Ico.mp hg).1 (Finset.mem_Ico.mp hg).2, Finset.sum_mul]
  have e2 : ∀ c ∈ Finset.Ico (0 : Int) (vecAt co Ms.length), Par.globalVec xs c * Par.globalVec ty c
      = ∑ g ∈ Finset.Ico (0 : Int) (vecAt ro Ms.length), Par.globalCoef Ms g c * Par.globalVec xs c * Par.globalVec ys g := by
    intro c hc
    rw [b4 c (Finset.mem_Ico.mp hc).1 (Finset.mem_Ico.mp hc).2, Finset.mul_sum]
    apply Finset.sum_congr rfl
    intro g _
    ring
  rw [Finset.sum_congr rfl e1, Finset.sum_congr rfl e2, Finset.sum_comm]

/-- **C87.**  `Mult` with the transpose that `Transpose()` builds is `MultAT`, share for share. -/
theorem C87_transpose [NonUnitalNonAssocSemiring R] (mv mvT : Par.Matvec R) (hmv : Par.IsMatvec mv) (hmvT : Par.IsMatvecT mvT)
    (srt : Csr.Sorter) (hs : IsSort srt) (search : List Int → Int → Int)
    (hsearch : IsSearch search) (reorder : Csr R → Csr R) (hre : Reorders reorder) (pkgs : List Par.CommPkg) (As : List (ParMat R))
    (ro co : List Int) (hA : Par.IsDist As ro co) (hpk : As.length > 1 → Par.IsCommPkg pkgs As co) (xs : List (List R))
    (hl : xs.length = As.length) (hx : Par.IsShares xs ro) :
    ∃ ys, Par.multAT mvT As xs = .ok ys ∧
      (do let Ts ← Par.parTranspose srt search reorder pkgs As; Par.mult mv Ts xs) = .ok ys := by
  obtain ⟨Ts, t1, t2, t3, t4⟩ := C77_parTranspose srt hs search hsearch reorder hre pkgs As ro co hA hpk
  obtain ⟨ys, a1, a2, a3, a4⟩ := C87_multAT mvT hmvT As ro co hA xs hl hx
  obtain ⟨zs, b1, b2, b3, b4⟩ := C87_mult mv hmv Ts co ro t3 xs (by omega) hx
  refine ⟨ys, a1, ?_⟩
  rw [t1, ok_bind, b1]
  congr 1
  refine b3.ext a3 (fun g g0 g1 => ?_)
  rw [b2] at g1
  rw [b4 g g0 g1, a4 g g0 (by rw [← t2]; exact g1), t2]
  simp only [t4]

/-- **C87.**  `Mult` with the product matrix that `A.Mult(B)` builds is `A` applied to `B` applied to the vector, share for share. -/
theorem C87_product [NonUnitalSemiring R] (mv : Par.Matvec R) (hmv : Par.IsMatvec mv) (srt : Csr.Sorter) (hs : IsSort srt)
    (search : List Int → Int → Int) (hsearch : IsSearch search) (reorder : Csr R → Csr R) (hre : Reorders reorder)
    (extract : List (ParMat R) → ParMat R → Csr R) (As Bs : List (ParMat R)) (ro ko co : List Int)
    (hA : Par.IsDist As ro ko) (hB : Par.IsDist Bs ko co) (hlen : As.length = Bs.length)
    (hext : As.length > 1 → ∀ A ∈ As, Par.IsExtract extract Bs (vecAt co Bs.length) A) (xs : List (List R)) (hl : xs.length = As.length)
    (hx : Par.IsShares xs co) :
    ∃ ys, (do let Cs ← Par.parMult srt search reorder extract As Bs; Par.mult mv Cs xs) = .ok ys ∧
      (do let bx ← Par.mult mv Bs xs; Par.mult mv As bx) = .ok ys := by
  obtain ⟨Cs, c1, c2, c3, c4⟩ := C76_parMult srt hs search hsearch reorder hre extract As Bs ro ko co hA hB hlen hext
  obtain ⟨ys, a1, a2, a3, a4⟩ := C87_mult mv hmv Cs ro co c3 xs (by omega) hx
  obtain ⟨bx, b1, b2, b3, b4⟩ := C87_mult mv hmv Bs ko co hB xs (by omega) hx
  obtain ⟨zs, d1, d2, d3, d4⟩ := C87_mult mv hmv As ro ko hA bx (by omega) b3
  refine ⟨ys, by rw [c1, ok_bind, a1], ?_⟩
  rw [b1, ok_bind, d1]
  congr 1
  refine d3.ext a3 (fun g g0 g1 => ?_)
  rw [d2] at g1
  rw [d4 g g0 g1, a4 g g0 (by rw [c2]; exact g1), c2]
  have e1 : ∀ k ∈ Finset.Ico (0 : Int) (vecAt ko As.length), Par.globalCoef As g k * Par.globalVec bx k
      = ∑ c ∈ Finset.Ico (0 : Int) (vecAt co As.length), Par.globalCoef As g k * Par.globalCoef Bs k c * Par.globalVec xs c := by
    intro k hk
    rw [b4 k (Finset.mem_Ico.mp hk).1 (by rw [← hlen]; exact (Finset.mem_Ico.mp hk).2), Finset.mul_sum, hlen]
    apply Finset.sum_congr rfl
    intro c _
    rw [mul_assoc]
  rw [Finset.sum_congr rfl e1, Finset.sum_comm]
  apply Finset.sum_congr rfl
  intro c _
  rw [c4, Finset.sum_mul]

namespace Par

theorem map_data_zip {vs : List (ParVec R)} {zs : List (List R)} (hl : vs.length = zs.length) :
    ((vs.zip zs).map (fun p => ({ p.1 with data := p.2 } : ParVec R))).map ParVec.data = zs := by
  rw [List.map_map]
  exact List.map_snd_zip (by omega)

theorem isVecs_zip {vs : List (ParVec R)} {zs : List (List R)} {o : List Int} (hl : vs.length = zs.length)
    (hp : ∀ (p : Nat) (h : p < vs.length), vs[p].part = [vecAt o p, vecAt o (p + 1), vecAt o vs.length] ∧ vs[p].globalSize = vecAt o vs.length)
    (hz : IsShares zs o) : IsVecs ((vs.zip zs).map (fun p => ({ p.1 with data := p.2 } : ParVec R))) o := by
  have e : ((vs.zip zs).map (fun p => ({ p.1 with data := p.2 } : ParVec R))).length = vs.length := by simp [hl]
  refine ⟨by rw [map_data_zip hl]; exact hz, ?_, ?_⟩
  · intro p h
    simp only [List.getElem_map, List.getElem_zip, e]
    exact (hp p (by omega)).1
  · intro p h
    simp only [List.getElem_map, List.getElem_zip, e]
    exact (hp p (by omega)).2

theorem globalRows_eq {M : ParMat α} {r0 r1 rn c0 c1 cn : Int} (h : M.WF r0 r1 rn c0 c1 cn) : M.globalRows = rn ∧ M.globalCols = cn := by
  unfold ParMat.globalRows ParMat.globalCols
  rw [h.row_starts.eq, h.col_starts.eq]
  exact ⟨rfl, rfl⟩

theorem zipThree {β γ δ : Type} {xs : List β} {ys : List γ} {zs : List δ} (h1 : xs.length = ys.length) (h2 : ys.length = zs.length)
    {p : β × γ × δ} (h : p ∈ xs.zip (ys.zip zs)) :
    ∃ (k : Nat) (hk : k < xs.length), p = (xs[k], ys[k]'(by omega), zs[k]'(by omega)) := by
  obtain ⟨k, hk, rfl⟩ := mem_zip_share (ys := ys.zip zs) (by rw [List.length_zip]; omega) h
  exact ⟨k, hk, by rw [List.getElem_zip]⟩

end Par

/-- **C87.**  `Mult(ParVector)`: when no process has a row range that starts at the end (`C85_false`), the product is built, with the
partition of the rows and the same shares as `Mult` with plain vectors. -/
theorem C87_vec_partial [NonUnitalNonAssocSemiring R] [IntCast R] (mv : Par.Matvec R) (hmv : Par.IsMatvec mv) (Ms : List (ParMat R))
    (ro co : List Int) (hM : Par.IsDist Ms ro co) (hne : ∀ p < Ms.length, vecAt ro p < vecAt ro Ms.length) (vs : List (ParVec R))
    (hl : vs.length = Ms.length) (hv : Par.IsVecs vs co) :
    ∃ ws, Par.multVec mv Ms vs = .ok ws ∧ ws.length = Ms.length ∧ Par.IsVecs ws ro ∧
      Par.mult mv Ms (vs.map ParVec.data) = .ok (ws.map ParVec.data) := by
  obtain ⟨ys, y1, y2, y3, -⟩ := C87_mult mv hmv Ms ro co hM (vs.map ParVec.data) (by rw [List.length_map]; exact hl) hv.shares
  obtain ⟨us, u1, u2, u3⟩ := Par.mapM_exists Ms (fun M => ParVec.ofVal (M.globalRows : R) M.rowStarts)
    (fun p u => u.part = [vecAt ro p, vecAt ro (p + 1), vecAt ro Ms.length] ∧ u.globalSize = vecAt ro Ms.length ∧
      (u.data.length : Int) = vecAt ro (p + 1) - vecAt ro p) (by
    intro p hp
    have w := hM.share p hp
    refine ⟨_, C85_ofVal_partial _ _ _ _ _ w.row_starts (hne p hp), w.row_starts.eq, rfl, ?_⟩
    have := w.row_starts.le
    rw [List.length_replicate]
    omega)
  have hy : mv Ms (vs.map ParVec.data) = ys := by
    have h := y1
    unfold Par.mult at h
    rw [bind_eq_ok] at h
    obtain ⟨_, -, h⟩ := h
    injection h
  have hws : Par.multVec mv Ms vs = .ok ((us.zip ys).map (fun p => ({ p.1 with data := p.2 } : ParVec R))) := by
    unfold Par.multVec
    rw [u1, ok_bind]
    unfold Par.multVecInto
    rw [Par.mapM_unit_ok, ok_bind, hy]
    intro p hp
    obtain ⟨k, hk, rfl⟩ := Par.zipThree hl.symm (by omega) hp
    have w := hM.share k hk
    have sx := hv.shares.share k (by rw [List.length_map]; omega)
    rw [List.getElem_map] at sx
    rw [Par.multCheck_ok _ (by rw [w.diag_cols]; exact sx) (by rw [w.diag_rows]; exact (u3 k hk).2.2), ok_bind]
    unfold ParMat.multCheckGlobal
    have ht := hv.total k (by omega)
    rw [show vecAt co vs.length = vecAt co Ms.length by rw [hl]] at ht
    rw [cassert_true (by rw [(Par.globalRows_eq w).2]; exact ht), ok_bind,
      cassert_true (by rw [(Par.globalRows_eq w).1]; exact (u3 k hk).2.1)]
  refine ⟨_, hws, by simp [u2, y2], Par.isVecs_zip (by omega) ?_ y3, ?_⟩
  · intro p hp
    rw [u2]
    exact ⟨(u3 p (by omega)).1, (u3 p (by omega)).2.1⟩
  · rw [Par.map_data_zip (by omega)]
    exact y1

/-- **C87.**  `MultAT(ParVector)` likewise, for the columns. -/
theorem C87_vecAT_partial [NonUnitalNonAssocSemiring R] [IntCast R] (mvT : Par.Matvec R) (hmv : Par.IsMatvecT mvT) (Ms : List (ParMat R))
    (ro co : List Int) (hM : Par.IsDist Ms ro co) (hne : ∀ p < Ms.length, vecAt co p < vecAt co Ms.length) (vs : List (ParVec R))
    (hl : vs.length = Ms.length) (hv : Par.IsVecs vs ro) :
    ∃ ws, Par.multATVec mvT Ms vs = .ok ws ∧ ws.length = Ms.length ∧ Par.IsVecs ws co ∧
      Par.multAT mvT Ms (vs.map ParVec.data) = .ok (ws.map ParVec.data) := by
  obtain ⟨ys, y1, y2, y3, -⟩ := C87_multAT mvT hmv Ms ro co hM (vs.map ParVec.data) (by rw [List.length_map]; exact hl) hv.shares
  obtain ⟨us, u1, u2, u3⟩ := Par.mapM_exists Ms (fun M => ParVec.ofVal (M.globalCols : R) M.colStarts)
    (fun p u => u.part = [vecAt co p, vecAt co (p + 1), vecAt co Ms.length] ∧ u.globalSize = vecAt co Ms.length ∧
      (u.data.length : Int) = vecAt co (p + 1) - vecAt co p) (by
    intro p hp
    have w := hM.share p hp
    refine ⟨_, C85_ofVal_partial _ _ _ _ _ w.col_starts (hne p hp), w.col_starts.eq, rfl, ?_⟩
    have := w.col_starts.le
    rw [List.length_replicate]
    omega)
  have hy : mvT Ms (vs.map ParVec.data) = ys := by
    have h := y1
    unfold Par.multAT at h
    rw [bind_eq_ok] at h
    obtain ⟨_, -, h⟩ := h
    injection h
  have hws : Par.multATVec mvT Ms vs = .ok ((us.zip ys).map (fun p => ({ p.1 with data := p.2 } : ParVec R))) := by
    unfold Par.multATVec
    rw [u1, ok_bind]
    unfold Par.multATVecInto
    rw [Par.mapM_unit_ok, ok_bind, hy]
    intro p hp
    obtain ⟨k, hk, rfl⟩ := Par.zipThree hl.symm (by omega) hp
    have w := hM.share k hk
    have sx := hv.shares.share k (by rw [List.length_map]; omega)
    rw [List.getElem_map] at sx
    rw [Par.multATCheck_ok _ (by rw [w.diag_rows]; exact sx) (by rw [w.diag_cols]; exact (u3 k hk).2.2), ok_bind]
    unfold ParMat.multATCheckGlobal
    have ht := hv.total k (by omega)
    rw [show vecAt ro vs.length = vecAt ro Ms.length by rw [hl]] at ht
    rw [cassert_true (by rw [(Par.globalRows_eq w).1]; exact ht), ok_bind,
      cassert_true (by rw [(Par.globalRows_eq w).2]; exact (u3 k hk).2.1)]
  refine ⟨_, hws, by simp [u2, y2], Par.isVecs_zip (by omega) ?_ y3, ?_⟩
  · intro p hp
    rw [u2]
    exact ⟨(u3 p (by omega)).1, (u3 p (by omega)).2.1⟩
  · rw [Par.map_data_zip (by omega)]
    exact y1

/-! ### The contracts can be met -/

namespace Par

/-- A vector product that meets the contract: every process computes its rows from the whole vector. -/
def fullMatvec [AddCommMonoid R] [Mul R] : Matvec R := fun Ms xs =>
  Ms.map (fun M => vecFn M.rows.toNat (fun i => ((iota (vecAt M.colStarts 2).toNat).map (fun c => M.coef i c * globalVec xs c)).sum))

/-- A transposed vector product that meets the contract. -/
def fullMatvecT [AddCommMonoid R] [Mul R] : Matvec R := fun Ms xs =>
  Ms.map (fun M => vecFn M.cols.toNat (fun i => ((iota (vecAt M.rowStarts 2).toNat).map (fun g =>
    globalCoef Ms g (vecAt M.colStarts 0 + i) * globalVec xs g)).sum))

/-- The process that owns element `g`. -/
theorem exists_owner {o : List Int} {n : Nat} (hl : o.length = n + 1) (h0 : vecAt o 0 = 0) {g : Int} (g0 : 0 ≤ g) (g1 : g < vecAt o n) :
    ∃ p : Nat, p < n ∧ vecAt o p ≤ g ∧ g < vecAt o (p + 1) := by
  have key : ∀ k : Nat, k ≤ n → g < vecAt o k → ∃ p : Nat, p < k ∧ vecAt o p ≤ g ∧ g < vecAt o (p + 1) := by
    intro k
    induction k with
    | zero => intro _ h; rw [Nat.cast_zero, h0] at h; omega
    | succ k ih =>
      intro hk h
      by_cases hg : g < vecAt o (k : Nat)
      · obtain ⟨p, h1, h2⟩ := ih (by omega) hg
        exact ⟨p, by omega, h2⟩
      · exact ⟨k, by omega, by omega, by push_cast at h; exact h⟩
  exact key n le_rfl g1

theorem fullMatvec_isMatvec [NonUnitalNonAssocSemiring R] : IsMatvec (fullMatvec (R := R)) := by
  intro Ms ro co hM xs hl hx
  have hlen : (fullMatvec Ms xs).length = Ms.length := by simp [fullMatvec]
  have hget : ∀ (p : Nat) (hp : p < Ms.length), (fullMatvec Ms xs)[p]'(by omega)
      = vecFn (vecAt ro (p + 1) - vecAt ro p).toNat (fun i => ∑ c ∈ Finset.Ico (0 : Int) (vecAt co Ms.length), Ms[p].coef i c * globalVec xs c) := by
    intro p hp
    have w := hM.share p hp
    have ht := w.col_starts.first_nonneg
    have ht' := w.col_starts.le
    have ht'' := w.col_starts.last_le
    have e : vecAt Ms[p].colStarts 2 = vecAt co Ms.length := by rw [w.col_starts.eq]; rfl
    simp only [fullMatvec, List.getElem_map]
    rw [w.rows_eq, e]
    apply vecFn_congr
    intro i _ _
    rw [sum_iota, Int.toNat_of_nonneg (by omega)]
  have hsh : IsShares (fullMatvec Ms xs) ro := by
    refine ⟨by rw [hlen]; exact hM.rows_len, hM.rows_first, ?_⟩
    intro p hp
    rw [hlen] at hp
    rw [hget p hp, length_vecFn]
    have := (hM.share p hp).row_starts.le
    omega
  refine ⟨hlen, hsh, ?_⟩
  intro g g0 g1
  obtain ⟨p, hp, h1, h2⟩ := exists_owner hM.rows_len hM.rows_first g0 g1
  have e : g = vecAt ro p + (g - vecAt ro p) := by omega
  have hs := hsh.share p (by omega)
  rw [e, hsh.globalVec p (by omega) (by omega) (by omega), hget p hp]
  rw [(is_vecFn _ _).vecAt_eq (by omega) (by omega)]
  apply Finset.sum_congr rfl
  intro c _
  rw [globalCoef_owner hM p hp (by omega) (by omega)]

theorem fullMatvecT_isMatvecT [NonUnitalNonAssocSemiring R] : IsMatvecT (fullMatvecT (R := R)) := by
  intro Ms ro co hM xs hl hx
  have hlen : (fullMatvecT Ms xs).length = Ms.length := by simp [fullMatvecT]
  have hget : ∀ (p : Nat) (hp : p < Ms.length), (fullMatvecT Ms xs)[p]'(by omega)
      = vecFn (vecAt co (p + 1) - vecAt co p).toNat (fun i => ∑ g ∈ Finset.Ico (0 : Int) (vecAt ro Ms.length),
        globalCoef Ms g (vecAt co p + i) * globalVec xs g) := by
    intro p hp
    have w := hM.share p hp
    have ht := w.row_starts.first_nonneg
    have ht' := w.row_starts.le
    have ht'' := w.row_starts.last_le
    have e : vecAt Ms[p].rowStarts 2 = vecAt ro Ms.length := by rw [w.row_starts.eq]; rfl
    have e' : vecAt Ms[p].colStarts 0 = vecAt co p := by rw [w.col_starts.eq]; rfl
    simp only [fullMatvecT, List.getElem_map]
    rw [w.cols_eq, e, e']
    apply vecFn_congr
    intro i _ _
    rw [sum_iota, Int.toNat_of_nonneg (by omega)]
  have hsh : IsShares (fullMatvecT Ms xs) co := by
    refine ⟨by rw [hlen]; exact hM.cols_len, hM.cols_first, ?_⟩
    intro p hp
    rw [hlen] at hp
    rw [hget p hp, length_vecFn]
    have := (hM.share p hp).col_starts.le
    omega
  refine ⟨hlen, hsh, ?_⟩
  intro g g0 g1
  obtain ⟨p, hp, h1, h2⟩ := exists_owner hM.cols_len hM.cols_first g0 g1
  have e : g = vecAt co p + (g - vecAt co p) := by omega
  have hs := hsh.share p (by omega)
  rw [e, hsh.globalVec p (by omega) (by omega) (by omega), hget p hp]
  rw [(is_vecFn _ _).vecAt_eq (by omega) (by omega)]

end Par

/-! ### Runs on two processes -/

namespace Par

/-- One row and one column, all on the first of two processes. -/
def exLone : List (ParMat Int) :=
  [⟨1, 1, [0, 1, 1], [0, 1, 1], ⟨1, 1, [0, 1], [0], [3]⟩, ⟨1, 0, [0, 0], [], []⟩, []⟩,
   ⟨0, 0, [1, 1, 1], [1, 1, 1], ⟨0, 0, [0], [], []⟩, ⟨0, 0, [0], [], []⟩, []⟩]

theorem exLone_dist : IsDist exLone [0, 1, 1] [0, 1, 1] := by
  have a0 : exLone[0].WF 0 1 1 0 1 1 := by constructor <;> first | decide | exact ⟨by decide, by decide, by decide, by decide⟩
  have a1 : exLone[1].WF 1 1 1 1 1 1 := by constructor <;> first | decide | exact ⟨by decide, by decide, by decide, by decide⟩
  refine ⟨rfl, rfl, rfl, rfl, by decide, by decide, ?_⟩
  intro p hp
  rcases p with _ | _ | p
  · exact a0
  · exact a1
  · exact absurd hp (by simp [exLone])

end Par

/-- **C87.**  With a process that owns no rows at the end, the product of plain vectors is computed, but `Mult(ParVector)` fails for every
input, because its output cannot be built. -/
theorem C87_vec_false : Par.IsDist Par.exLone [0, 1, 1] [0, 1, 1] ∧ Par.IsShares [[(2 : Int)], []] [0, 1, 1] ∧
    Par.mult Par.fullMatvec Par.exLone [[2], []] = .ok [[6], []] ∧
    ∀ (mv : Par.Matvec Int) (vs : List (ParVec Int)), Par.multVec mv Par.exLone vs = .error .assertFail := by
  refine ⟨Par.exLone_dist, ⟨rfl, rfl, ?_⟩, by decide +kernel, fun mv vs => rfl⟩
  intro p hp
  have hp : p < 2 := hp
  rcases (by omega : p = 0 ∨ p = 1) with rfl | rfl <;> rfl

/-- `[[1, 2], [4, 3]]` times `(5, 7)`, and its transpose times it. -/
example : Par.IsDist Par.exA [0, 1, 2] [0, 1, 2] ∧ Par.IsShares [[(5 : Int)], [7]] [0, 1, 2] ∧ Par.IsMatvec (Par.fullMatvec (R := Int)) ∧
    Par.IsMatvecT (Par.fullMatvecT (R := Int)) ∧
    Par.mult Par.fullMatvec Par.exA [[5], [7]] = .ok [[19], [41]] ∧ Par.multAT Par.fullMatvecT Par.exA [[5], [7]] = .ok [[33], [31]] ∧
    Par.multVec Par.fullMatvec Par.exA [⟨[5], [0, 1, 2], 2⟩, ⟨[7], [1, 2, 2], 2⟩] = .ok [⟨[19], [0, 1, 2], 2⟩, ⟨[41], [1, 2, 2], 2⟩] ∧
    Par.mult Par.fullMatvec Par.exA [[5], [7, 8]] = .error .assertFail := by
  refine ⟨Par.exDist.1, ⟨rfl, rfl, ?_⟩, Par.fullMatvec_isMatvec, Par.fullMatvecT_isMatvecT, by decide +kernel, by decide +kernel, by decide +kernel,
    by decide +kernel⟩
  intro p hp
  have hp : p < 2 := hp
  rcases (by omega : p = 0 ∨ p = 1) with rfl | rfl <;> rfl

end Linalg
