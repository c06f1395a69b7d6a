import Verif.Model.ReleaseScale
import Verif.Props.ReleaseDense2
import Verif.Props.DenseMore
import Verif.Props.ReleaseSparse

/-! # C149: scaling by inverses without assertions -/

namespace Linalg
open Cpp

variable {α : Type}

/-- **C149.**  With assertions the functions are those of the other models. -/
theorem C149_debug [Zero α] [Div α] [DecidableEq α] (D : Dense α) (A : Csr α) (v : List α) (val : α) :
    Rel.dinvRows .debug (· / ·) D v = D.inverseScaleRows v ∧ Rel.dinvCols .debug (· / ·) D v = D.inverseScaleCols v ∧
    Rel.ddiv .debug (· / ·) D val = D.divScalar val ∧ Rel.sdiv .debug (· / ·) A val = A.divScale val ∧ Rel.sfill .debug A val = A.fillVal val :=
  ⟨rfl, rfl, rfl, rfl, rfl⟩

/-- **C149.**  A call that passes the assertions gives the same result when they are compiled away. -/
theorem C149_same [Zero α] [Div α] [DecidableEq α] (D : Dense α) (A : Csr α) (v : List α) (val : α) :
    Refines (D.inverseScaleRows v) (Rel.dinvRows .release (· / ·) D v) ∧ Refines (D.inverseScaleCols v) (Rel.dinvCols .release (· / ·) D v) ∧
    Refines (D.divScalar val) (Rel.ddiv .release (· / ·) D val) ∧ Refines (A.divScale val) (Rel.sdiv .release (· / ·) A val) ∧
    Refines (A.fillVal val) (Rel.sfill .release A val) := by
  refine ⟨?_, ?_, (Refines.assert _).bind fun _ => Refines.refl _, (Refines.assert _).bind fun _ => Refines.refl _,
    (Refines.assert _).bind fun _ => Refines.refl _⟩
  · exact Refines.forUp fun j _ => Refines.forUp fun i _ => (Refines.refl _).bind fun _ => (Refines.assert _).bind fun _ =>
      (Refines.dget _ _ _).bind fun _ => Refines.dput _ _ _ _
  · exact Refines.forUp fun j _ => (Refines.refl _).bind fun _ => (Refines.assert _).bind fun _ => Refines.forUp fun i _ =>
      (Refines.dget _ _ _).bind fun _ => Refines.dput _ _ _ _

/-- One step of the loops. -/
theorem Rel.ddiv_step [Zero α] (div : α → α → α) {m n : Nat} (h : Int → Int → α) {i j : Int} (s : α) (i0 : 0 ≤ i) (i1 : i < m) (j0 : 0 ≤ j) (j1 : j < n) :
    (do
      let x ← Rel.dget .release (Dense.ofFn m n h) i j
      Rel.dput .release (Dense.ofFn m n h) i j (div x s) : Res (Dense α))
      = .ok (Dense.ofFn m n (fun a b => if a = i ∧ b = j then div (h i j) s else h a b)) := by
  have hg : Rel.dget .release (Dense.ofFn m n h) i j = .ok (h i j) := C139_same.1 _ i j _ (Dense.get_ofFn i0 i1 j0 j1)
  rw [hg, ok_bind, Rel.dput_ofFn _ i0 i1 j0 j1]

/-- **C149.**  `InverseScaleRows(values)` works exactly if the matrix has no columns or there is a value for every row.  Every element is then divided by the value of
its row, whether or not that is zero. -/
theorem C149_invRows [Zero α] [DecidableEq α] (div : α → α → α) (D : Dense α) (hD : D.WF) (v : List α) :
    (D.cols = 0 ∨ D.rows ≤ v.length → ∃ E, Rel.dinvRows .release div D v = .ok E ∧ E.Is D.rows D.cols (fun i j => div (D.entry i j) (vecAt v i))) ∧
    (¬ (D.cols = 0 ∨ D.rows ≤ v.length) → Rel.dinvRows .release div D v = .error .outOfBounds) := by
  obtain ⟨m, n, f, rfl⟩ := hD.exists_fn
  have hl : Rel.dinvRows .release div (Dense.ofFn m n f) v = forUp 0 (n : Int) (Dense.ofFn m n f) (fun j D => forUp 0 D.rows D (fun i D => do
      let s ← rd v i
      let x ← Rel.dget .release D i j
      Rel.dput .release D i j (div x s))) := rfl
  rw [hl]
  simp only [Dense.ofFn_rows, Dense.ofFn_cols]
  constructor
  · intro h
    refine ⟨Dense.ofFn m n (fun a b => div (f a b) (vecAt v a)), ?_, (Dense.is_ofFn m n _).congr ?_⟩
    · have e0 : Dense.ofFn m n f = Dense.ofFn m n (fun a b => if b < 0 then div (f a b) (vecAt v a) else f a b) := by
        apply Dense.ofFn_congr; intros; rw [if_neg (by omega)]
      have e1 : Dense.ofFn m n (fun a b => div (f a b) (vecAt v a)) = Dense.ofFn m n (fun a b => if b < (n : Int) then div (f a b) (vecAt v a) else f a b) := by
        apply Dense.ofFn_congr; intros; rw [if_pos (by omega)]
      rw [e0, e1]
      refine forUp_seq (by omega) (fun k => Dense.ofFn m n (fun a b => if b < k then div (f a b) (vecAt v a) else f a b)) ?_
      intro k k0 k1
      have e2 : Dense.ofFn m n (fun a b => if b < k then div (f a b) (vecAt v a) else f a b)
          = Dense.ofFn m n (fun a b => if b < k ∨ (b = k ∧ a < 0) then div (f a b) (vecAt v a) else f a b) := by
        apply Dense.ofFn_congr; intro a b a0 a1 b0 b1; congr 1; apply propext; omega
      have e3 : Dense.ofFn m n (fun a b => if b < k + 1 then div (f a b) (vecAt v a) else f a b)
          = Dense.ofFn m n (fun a b => if b < k ∨ (b = k ∧ a < (m : Int)) then div (f a b) (vecAt v a) else f a b) := by
        apply Dense.ofFn_congr; intro a b a0 a1 b0 b1; congr 1; apply propext; omega
      rw [e3, Dense.ofFn_rows, e2]
      refine forUp_seq (by omega) (fun q => Dense.ofFn m n (fun a b => if b < k ∨ (b = k ∧ a < q) then div (f a b) (vecAt v a) else f a b)) ?_
      intro q q0 q1
      rw [rd_vecAt v q0 (by omega), ok_bind, Rel.ddiv_step div _ _ q0 q1 k0 k1]
      congr 1
      apply Dense.ofFn_congr
      intro a b a0 a1 b0 b1
      by_cases e : a = q ∧ b = k
      · obtain ⟨rfl, rfl⟩ := e
        rw [if_pos ⟨rfl, rfl⟩, if_neg (by omega), if_pos (by omega)]
      · rw [if_neg e]
        congr 1
        apply propext
        omega
    · intro i j i0 i1 j0 j1
      rw [Dense.entry_ofFn i0 i1 j0 j1]
  · intro h
    have hstep : ∀ (j : Int) (i : Int) (E : Dense α), 0 ≤ j → j < n → 0 ≤ i → i < m → (∃ g, E = Dense.ofFn m n g) →
        (do
          let s ← rd v i
          let x ← Rel.dget .release E i j
          Rel.dput .release E i j (div x s) : Res (Dense α)) = .error .outOfBounds ∨ ∃ F, (do
          let s ← rd v i
          let x ← Rel.dget .release E i j
          Rel.dput .release E i j (div x s) : Res (Dense α)) = .ok F ∧ ∃ g, F = Dense.ofFn m n g := by
      rintro j i E j0 j1 i0 i1 ⟨g, rfl⟩
      by_cases hi : i < (v.length : Int)
      · rw [rd_vecAt v i0 hi, ok_bind, Rel.ddiv_step div _ _ i0 i1 j0 j1]
        exact Or.inr ⟨_, rfl, _, rfl⟩
      · rw [rd_oob (by omega)]
        exact Or.inl rfl
    refine forUp_stops (fun E => ∃ g, E = Dense.ofFn m n g) .outOfBounds ⟨f, rfl⟩ ?_ ⟨0, le_rfl, by omega, ?_⟩
    · rintro j E j0 j1 ⟨g, rfl⟩
      exact forUp_either (fun E => ∃ g, E = Dense.ofFn m n g) .outOfBounds ⟨g, rfl⟩ fun i E i0 i1 hE => hstep j i E j0 j1 i0 i1 hE
    · rintro E ⟨g, rfl⟩
      refine forUp_stops (fun E => ∃ g, E = Dense.ofFn m n g) .outOfBounds ⟨g, rfl⟩ (fun i E i0 i1 hE => hstep 0 i E le_rfl (by omega) i0 i1 hE)
        ⟨v.length, by omega, by rw [Dense.ofFn_rows]; omega, ?_⟩
      intro E _
      rw [rd_oob (by omega)]
      rfl

/-- **C149.**  `InverseScaleCols(values)` works exactly if there is a value for every column, even if there are no rows.  Every element is then divided by the value of
its column, whether or not that is zero. -/
theorem C149_invCols [Zero α] [DecidableEq α] (div : α → α → α) (D : Dense α) (hD : D.WF) (v : List α) :
    (D.cols ≤ v.length → ∃ E, Rel.dinvCols .release div D v = .ok E ∧ E.Is D.rows D.cols (fun i j => div (D.entry i j) (vecAt v j))) ∧
    (¬ D.cols ≤ v.length → Rel.dinvCols .release div D v = .error .outOfBounds) := by
  obtain ⟨m, n, f, rfl⟩ := hD.exists_fn
  have hl : Rel.dinvCols .release div (Dense.ofFn m n f) v = forUp 0 (n : Int) (Dense.ofFn m n f) (fun j D => do
      let s ← rd v j
      forUp 0 D.rows D (fun i D => do
        let x ← Rel.dget .release D i j
        Rel.dput .release D i j (div x s))) := rfl
  rw [hl]
  simp only [Dense.ofFn_rows, Dense.ofFn_cols]
  constructor
  · intro h
    refine ⟨Dense.ofFn m n (fun a b => div (f a b) (vecAt v b)), ?_, (Dense.is_ofFn m n _).congr ?_⟩
    · have e0 : Dense.ofFn m n f = Dense.ofFn m n (fun a b => if b < 0 then div (f a b) (vecAt v b) else f a b) := by
        apply Dense.ofFn_congr; intros; rw [if_neg (by omega)]
      have e1 : Dense.ofFn m n (fun a b => div (f a b) (vecAt v b)) = Dense.ofFn m n (fun a b => if b < (n : Int) then div (f a b) (vecAt v b) else f a b) := by
        apply Dense.ofFn_congr; intros; rw [if_pos (by omega)]
      rw [e0, e1]
      refine forUp_seq (by omega) (fun k => Dense.ofFn m n (fun a b => if b < k then div (f a b) (vecAt v b) else f a b)) ?_
      intro k k0 k1
      have e2 : Dense.ofFn m n (fun a b => if b < k then div (f a b) (vecAt v b) else f a b)
          = Dense.ofFn m n (fun a b => if b < k ∨ (b = k ∧ a < 0) then div (f a b) (vecAt v b) else f a b) := by
        apply Dense.ofFn_congr; intro a b a0 a1 b0 b1; congr 1; apply propext; omega
      have e3 : Dense.ofFn m n (fun a b => if b < k + 1 then div (f a b) (vecAt v b) else f a b)
          = Dense.ofFn m n (fun a b => if b < k ∨ (b = k ∧ a < (m : Int)) then div (f a b) (vecAt v b) else f a b) := by
        apply Dense.ofFn_congr; intro a b a0 a1 b0 b1; congr 1; apply propext; omega
      rw [rd_vecAt v k0 (by omega), ok_bind, e3, Dense.ofFn_rows, e2]
      refine forUp_seq (by omega) (fun q => Dense.ofFn m n (fun a b => if b < k ∨ (b = k ∧ a < q) then div (f a b) (vecAt v b) else f a b)) ?_
      intro q q0 q1
      rw [Rel.ddiv_step div _ _ q0 q1 k0 k1]
      congr 1
      apply Dense.ofFn_congr
      intro a b a0 a1 b0 b1
      by_cases e : a = q ∧ b = k
      · obtain ⟨rfl, rfl⟩ := e
        rw [if_pos ⟨rfl, rfl⟩, if_neg (by omega), if_pos (by omega)]
      · rw [if_neg e]
        congr 1
        apply propext
        omega
    · intro i j i0 i1 j0 j1
      rw [Dense.entry_ofFn i0 i1 j0 j1]
  · intro h
    refine forUp_stops (fun E => ∃ g, E = Dense.ofFn m n g) .outOfBounds ⟨f, rfl⟩ ?_ ⟨v.length, by omega, by omega, ?_⟩
    · rintro j E j0 j1 ⟨g, rfl⟩
      by_cases hj : j < (v.length : Int)
      · rw [rd_vecAt v j0 hj, ok_bind]
        refine forUp_either (fun E => ∃ g, E = Dense.ofFn m n g) .outOfBounds ⟨g, rfl⟩ fun i E i0 i1 hE => ?_
        obtain ⟨g', rfl⟩ := hE
        rw [Dense.ofFn_rows] at i1
        rw [Rel.ddiv_step div _ _ i0 i1 j0 j1]
        exact Or.inr ⟨_, rfl, _, rfl⟩
      · rw [rd_oob (by omega)]
        exact Or.inl rfl
    · rintro E -
      rw [rd_oob (by omega)]
      rfl

/-- **C149.**  `/=` of a matrix by any number divides every element, and assigning any number to a sparse matrix, also zero, sets its stored values and keeps its
pattern. -/
theorem C149_scalars [Zero α] [DecidableEq α] (div : α → α → α) (D : Dense α) (hD : D.WF) (A : Csr α) (hA : A.WF) (val : α) :
    (∃ E, Rel.ddiv .release div D val = .ok E ∧ E.Is D.rows D.cols (fun i j => div (D.entry i j) val)) ∧
    (∃ B, Rel.sdiv .release div A val = .ok B ∧ B.WF ∧ A.UpdatedBy B (fun _ _ x => div x val)) ∧
    ∃ B, Rel.sfill .release A val = .ok B ∧ B.WF ∧ A.UpdatedBy B (fun _ _ _ => val) := by
  have key : ∀ (G : α → α), ∃ B, (.ok { A with data := A.data.map G } : Res (Csr α)) = .ok B ∧ B.WF ∧ A.UpdatedBy B (fun _ _ x => G x) := by
    intro G
    obtain ⟨n, rs, hn, hrs, rfl⟩ := hA.exists_rows
    refine ⟨Csr.ofRows n (mapRows (fun _ e => G e.2) rs), ?_, Csr.wf_ofRows hn (mapRows_ok hrs), updatedBy_mapRows n rs _⟩
    rw [ofRows_mapRows]
    congr 1
    have e : (Csr.ofRows n rs).data = (triplesL rs).map (fun t => t.2.2) := by
      simp only [Csr.ofRows, ← triplesL_map_snd rs, List.map_map, Function.comp_def]
    rw [e, List.map_map]
    rfl
  refine ⟨?_, key (fun d => div d val), ?_⟩
  · obtain ⟨m, n, f, rfl⟩ := hD.exists_fn
    refine ⟨Dense.ofFn m n (fun i j => div (f i j) val), ?_, (Dense.is_ofFn m n _).congr ?_⟩
    · show (.ok _ : Res (Dense α)) = _
      rw [Dense.map_ofFn m n f (fun x => div x val)]
    · intro i j a b c d
      rw [Dense.entry_ofFn a b c d]
  · obtain ⟨B, h1, h2⟩ := key (fun _ => val)
    refine ⟨B, ?_, h2⟩
    rw [← h1]
    show (.ok { A with data := List.replicate A.data.length val } : Res (Csr α)) = _
    rw [List.map_const']

/-! ## Concrete cases -/

/-- A division that gives 1000 for a zero divisor. -/
def C149_div (a c : Int) : Int := if c = 0 then 1000 else a / c

example : Rel.dinvRows .release C149_div C144_D [2, 0, 7] = .ok ⟨2, 3, [0, 1000, 1, 1000, 2, 1000]⟩ ∧
    Rel.dinvRows .debug C149_div C144_D [2, 0, 7] = .error .assertFail ∧ Rel.dinvRows .release C149_div C144_D [2] = .error .outOfBounds ∧
    Rel.dinvRows .release C149_div (⟨2, 0, []⟩ : Dense Int) [] = .ok ⟨2, 0, []⟩ ∧
    Rel.dinvCols .release C149_div C144_D [1, 0, 5] = .ok ⟨2, 3, [1, 2, 1000, 1000, 1, 1]⟩ ∧
    Rel.dinvCols .debug C149_div C144_D [1, 0, 5] = .error .assertFail ∧
    Rel.dinvCols .release C149_div (⟨0, 2, []⟩ : Dense Int) [1] = .error .outOfBounds := by decide +kernel

example : Rel.ddiv .release C149_div C144_D 0 = .ok ⟨2, 3, [1000, 1000, 1000, 1000, 1000, 1000]⟩ ∧ Rel.ddiv .debug C149_div C144_D 0 = .error .assertFail ∧
    Rel.sdiv .release C149_div (⟨1, 2, [0, 2], [0, 1], [4, 6]⟩ : Csr Int) 2 = .ok ⟨1, 2, [0, 2], [0, 1], [2, 3]⟩ ∧
    Rel.sfill .release (⟨1, 2, [0, 2], [0, 1], [4, 6]⟩ : Csr Int) 0 = .ok ⟨1, 2, [0, 2], [0, 1], [0, 0]⟩ ∧
    Rel.sfill .debug (⟨1, 2, [0, 2], [0, 1], [4, 6]⟩ : Csr Int) 0 = .error .assertFail := by decide +kernel

/-- The hypotheses of the theorems hold in such cases. -/
example : ∃ E, Rel.dinvRows .release C149_div C144_D [2, 0, 7] = .ok E ∧ E.rows = 2 := by
  obtain ⟨E, h1, h2⟩ := (C149_invRows C149_div C144_D C144_D_wf [2, 0, 7]).1 (by decide)
  exact ⟨E, h1, h2.rows_eq⟩

example : Rel.dinvCols .release C149_div C144_D [1, 0] = .error .outOfBounds :=
  (C149_invCols C149_div C144_D C144_D_wf [1, 0]).2 (by decide)

example : ∃ B, Rel.sfill .release (Csr.ofRows 2 [[(0, 4), (1, 6)]] : Csr Int) 0 = .ok B ∧ B.WF := by
  obtain ⟨B, h1, h2, -⟩ := (C149_scalars C149_div C144_D C144_D_wf (Csr.ofRows 2 [[(0, 4), (1, 6)]]) (Csr.wf_ofRows (by decide) (by decide)) 0).2.2
  exact ⟨B, h1, h2⟩

/-- **C149.**  With assertions the sparse functions are those of the other model, and a call that passes the assertions gives the same result without. -/
theorem C149_sparse_same [Zero α] [Div α] [DecidableEq α] (A : Csr α) (v : List α) :
    Rel.sinvRows .debug (· / ·) A v = A.inverseScaleRows v ∧ Rel.sinvCols .debug (· / ·) A v = A.inverseScaleCols v ∧
    Refines (A.inverseScaleRows v) (Rel.sinvRows .release (· / ·) A v) ∧ Refines (A.inverseScaleCols v) (Rel.sinvCols .release (· / ·) A v) := by
  refine ⟨rfl, rfl, ?_, ?_⟩
  · exact (Refines.assert _).bind fun _ => Refines.bind (Refines.forUp fun _ _ => (Refines.refl _).bind fun _ => (Refines.assert _).bind fun _ =>
      Refines.refl _) fun _ => Refines.refl _
  · exact (Refines.assert _).bind fun _ => Refines.bind (Refines.forUp fun _ _ => Refines.forRow fun _ _ => (Refines.refl _).bind fun _ =>
      (Refines.refl _).bind fun _ => (Refines.assert _).bind fun _ => Refines.refl _) fun _ => Refines.refl _

/-- **C149.**  `InverseScaleRows(d)` of a sparse matrix works exactly if `d` has at least as many elements as the matrix has rows; every stored value is then divided by
the element of its row, also by zero. -/
theorem C149_sparseRows [Zero α] [DecidableEq α] (div : α → α → α) (A : Csr α) (hA : A.WF) (d : List α) :
    (A.rows ≤ d.length → ∃ B, Rel.sinvRows .release div A d = .ok B ∧ B.WF ∧ A.UpdatedBy B (fun i _ v => div v (vecAt d i))) ∧
    ((d.length : Int) < A.rows → Rel.sinvRows .release div A d = .error .outOfBounds) := by
  obtain ⟨n, rs, hn, hrs, rfl⟩ := hA.exists_rows
  have hrows : (Csr.ofRows n rs).rows = (rs.length : Int) := rfl
  unfold Rel.sinvRows
  rw [show Build.release.assert ((d.length : Int) = (Csr.ofRows n rs).rows) = .ok () from rfl, ok_bind]
  constructor
  · intro hd
    have hl : ∀ data : List α, forUp 0 (Csr.ofRows n rs).rows data (fun i data => do
        let s ← rd d i
        Build.release.assert (s ≠ 0)
        (Csr.ofRows n rs).forRow i data (fun j data => do
          let x ← rd data j
          wr data j (div x s)))
        = forUp 0 (Csr.ofRows n rs).rows data (fun i data =>
        (Csr.ofRows n rs).forRow i data (fun j data => do
          let x ← rd data j
          wr data j (div x (vecAt d i)))) := by
      intro data
      apply forUp_congr
      intro i s h0 h1
      rw [rd_vecAt d h0 (by omega)]
      rfl
    rw [hl]
    refine upd_ofRows hn hrs (fun i j data => do
          let x ← rd data j
          wr data j (div x (vecAt d i))) (fun i e => div e.2 (vecAt d i)) ?_
    intro t p ht hp hi dd hdd hv
    simp only [hv, ok_bind]
    exact wr_nat (by omega)
  · intro hd
    rw [forUp_fails (fun _ (dd : List α) => dd.length = rs.flatten.length) (fun i => i < (d.length : Int)) .outOfBounds
      (by simp only [Csr.ofRows, List.length_map]) ?_ ?_ ⟨d.length, by omega, hd, by omega⟩]
    · rfl
    · intro i dd i0 i1 hdd hg
      rw [hrows] at i1
      obtain ⟨q, rfl⟩ : ∃ q : Nat, i = q := ⟨i.toNat, by omega⟩
      have hq : q < rs.length := by omega
      rw [rd_vecAt d i0 hg, ok_bind]
      unfold Csr.forRow
      have e1 : rd (Csr.ofRows n rs).indptr (q : Int) = _ := rd_ptrs rs q hq.le
      have e2 : rd (Csr.ofRows n rs).indptr ((q : Int) + 1) = _ := rd_ptrs_succ rs q hq
      rw [e1, ok_bind, e2, ok_bind]
      have hle : ((rs.take q).flatten.length : Int) + rs[q].length ≤ rs.flatten.length := by
        have h1 : (rs.take (q + 1)).flatten.length ≤ rs.flatten.length := by
          conv_rhs => rw [← List.take_append_drop (q + 1) rs, List.flatten_append, List.length_append]
          omega
        rw [List.take_succ_eq_append_getElem hq, List.flatten_append] at h1
        simp only [List.length_append, List.flatten_cons, List.flatten_nil, List.append_nil] at h1
        omega
      refine forUp_inv (by omega) (fun _ (dd : List α) => dd.length = rs.flatten.length) hdd ?_
      intro j dd j0 j1 hdd
      rw [rd_int (by omega) (by omega), ok_bind, wr_int (by omega) (by omega)]
      exact ⟨_, rfl, by simpa using hdd⟩
    · intro i dd i0 i1 hdd hg
      rw [rd_oob (by omega)]
      rfl

/-- **C149.**  `InverseScaleCols(d)` of a sparse matrix works exactly if `d` has an element for every stored column. -/
theorem C149_sparseCols [Zero α] [DecidableEq α] (div : α → α → α) (A : Csr α) (hA : A.WF) (d : List α) :
    ((∀ c ∈ A.indices, c < (d.length : Int)) → ∃ B, Rel.sinvCols .release div A d = .ok B ∧ B.WF ∧ A.UpdatedBy B (fun _ j v => div v (vecAt d j))) ∧
    (¬ (∀ c ∈ A.indices, c < (d.length : Int)) → Rel.sinvCols .release div A d = .error .outOfBounds) := by
  obtain ⟨n, rs, hn, hrs, rfl⟩ := hA.exists_rows
  unfold Rel.sinvCols
  rw [show Build.release.assert ((d.length : Int) = (Csr.ofRows n rs).cols) = .ok () from rfl, ok_bind]
  constructor
  · intro h
    refine upd_ofRows hn hrs _ (fun _ e => div e.2 (vecAt d e.1)) ?_
    intro t p ht hp hi dd hdd hv
    have hc := (triplesL_ok hrs t ht).2
    have hlt : t.2.1 < (d.length : Int) := by
      obtain ⟨k, hk, h1, h2⟩ := mem_triplesL.mp ht
      exact h _ (mem_indices_ofRows.mpr ⟨_, List.getElem_mem hk, _, h2, rfl⟩)
    simp only [hv, hi, ok_bind]
    rw [rd_vecAt d hc.1 hlt]
    simp only [ok_bind]
    exact wr_nat (by omega)
  · intro h
    rw [updLoop_fails _ (fun t => t.2.1 < (d.length : Int)) .outOfBounds ?_ ?_ (mem_triples_of_bad h)]
    · rfl
    · intro t p ht hp hi dd hdd hg
      have hc := (triplesL_ok hrs t ht).2
      simp only [hi, ok_bind]
      rw [rd_vecAt d hc.1 hg, ok_bind, rd_nat (by omega), ok_bind, wr_nat (by omega)]
      exact ⟨_, rfl, by simpa using hdd⟩
    · intro t p ht hp hi dd hdd hg
      simp only [hi, ok_bind]
      rw [rd_oob (by omega)]
      rfl

/-- A list that is too long, with a zero, and one that is too short. -/
example : Csr.inverseScaleRows (⟨2, 2, [0, 1, 2], [1, 0], [6, 8]⟩ : Csr Int) [3, 0, 2] = .error .assertFail ∧
    Rel.sinvRows .release (· / ·) (⟨2, 2, [0, 1, 2], [1, 0], [6, 8]⟩ : Csr Int) [3, 0, 2] = .ok ⟨2, 2, [0, 1, 2], [1, 0], [2, 0]⟩ ∧
    Rel.sinvRows .release (· / ·) (⟨2, 2, [0, 1, 2], [1, 0], [6, 8]⟩ : Csr Int) [3] = .error .outOfBounds ∧
    Rel.sinvCols .release (· / ·) (⟨2, 2, [0, 1, 2], [0, 0], [6, 8]⟩ : Csr Int) [2] = .ok ⟨2, 2, [0, 1, 2], [0, 0], [3, 4]⟩ ∧
    Rel.sinvCols .release (· / ·) (⟨2, 2, [0, 1, 2], [1, 0], [6, 8]⟩ : Csr Int) [2] = .error .outOfBounds := by decide

end Linalg
