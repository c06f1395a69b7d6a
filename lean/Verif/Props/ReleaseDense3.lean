import Verif.Model.ReleaseDense3
import Verif.Props.ReleaseDense2

/-! # C146: AddSubMatrix and SetSubMatrixTranspose without assertions -/

namespace Linalg
open Cpp

variable {α R : Type}

/-- **C146.**  With assertions the functions are those of the other models. -/
theorem C146_debug :
    (∀ [Add α] (D B : Dense α) (rows cols : List Int), Rel.daddSub .debug D rows cols B = D.addSubMatrix rows cols B) ∧
    ∀ (D B : Dense α) (si sj : Int), Rel.dsetSubT .debug D si sj B = D.setSubMatrixTranspose si sj B :=
  ⟨fun D B rows cols => rfl, fun D B si sj => rfl⟩

/-- **C146.**  A call that passes the assertions gives the same result when they are compiled away. -/
theorem C146_same :
    (∀ [Add α] (D B : Dense α) (rows cols : List Int), Refines (D.addSubMatrix rows cols B) (Rel.daddSub .release D rows cols B)) ∧
    ∀ (D B : Dense α) (si sj : Int), Refines (D.setSubMatrixTranspose si sj B) (Rel.dsetSubT .release D si sj B) := by
  refine ⟨fun D B rows cols => ?_, fun D B si sj => ?_⟩
  · exact (Refines.assert _).bind fun _ => (Refines.assert _).bind fun _ => Refines.forUp fun j _ => Refines.forUp fun i _ =>
      (Refines.refl _).bind fun _ => (Refines.refl _).bind fun _ => (Refines.dget B _ _).bind fun _ => (Refines.dget _ _ _).bind fun _ =>
      Refines.dput _ _ _ _
  · exact (Refines.drange D si sj _ _).bind fun _ => Refines.forUp fun j _ => Refines.forUp fun i _ =>
      (Refines.dget B _ _).bind fun _ => Refines.dput _ _ _ _

/-- **C146.**  `AddSubMatrix(rows, cols, dense)` with any lists: it works exactly if there is a row and a column for every element of the block and the address
of that row and column is in the buffer; longer lists are not an error.  Then every address gets the sum of all elements of the block that belong to it. -/
theorem C146_addSub [AddCommMonoid R] (D B : Dense R) (hD : D.WF) (hB : B.WF) (rows cols : List Int) :
    ((∀ i j, 0 ≤ i → i < B.rows → 0 ≤ j → j < B.cols → i < rows.length ∧ j < cols.length ∧
        0 ≤ vecAt rows i + vecAt cols j * D.rows ∧ vecAt rows i + vecAt cols j * D.rows < D.rows * D.cols) →
      ∃ E, Rel.daddSub .release D rows cols B = .ok E ∧ E.WF ∧ E.rows = D.rows ∧ E.cols = D.cols ∧
        ∀ p, 0 ≤ p → p < D.rows * D.cols → rd E.data p = .ok (vecAt D.data p +
          ∑ j ∈ Finset.Ico 0 B.cols, ∑ i ∈ Finset.Ico 0 B.rows, if vecAt rows i + vecAt cols j * D.rows = p then B.entry i j else 0)) ∧
    (¬ (∀ i j, 0 ≤ i → i < B.rows → 0 ≤ j → j < B.cols → i < rows.length ∧ j < cols.length ∧
        0 ≤ vecAt rows i + vecAt cols j * D.rows ∧ vecAt rows i + vecAt cols j * D.rows < D.rows * D.cols) →
      Rel.daddSub .release D rows cols B = .error .outOfBounds) := by
  have m0 := hB.rows_nonneg
  have n0 := hB.cols_nonneg
  have hl : Rel.daddSub .release D rows cols B = forUp 0 B.cols D (fun j D => forUp 0 B.rows D (fun i D => do
      let r ← rd rows i
      let c ← rd cols j
      let x ← Rel.dget .release B i j
      let old ← Rel.dget .release D r c
      Rel.dput .release D r c (old + x))) := rfl
  rw [hl]
  -- one step, at an address that is in the buffer
  have hgood : ∀ (i j : Int) (E : Dense R), 0 ≤ i → i < B.rows → 0 ≤ j → j < B.cols → E.WF → E.rows = D.rows → E.cols = D.cols →
      i < rows.length → j < cols.length → 0 ≤ vecAt rows i + vecAt cols j * D.rows → vecAt rows i + vecAt cols j * D.rows < D.rows * D.cols →
      ∃ F, (do
        let r ← rd rows i
        let c ← rd cols j
        let x ← Rel.dget .release B i j
        let old ← Rel.dget .release E r c
        Rel.dput .release E r c (old + x) : Res (Dense R)) = .ok F ∧ F.WF ∧ F.rows = D.rows ∧ F.cols = D.cols ∧
        ∀ p, 0 ≤ p → p < D.rows * D.cols →
          rd F.data p = .ok (vecAt E.data p + if vecAt rows i + vecAt cols j * D.rows = p then B.entry i j else 0) := by
    intro i j E i0 i1 j0 j1 hE e1 e2 hi hj a0 a1
    rw [rd_vecAt rows i0 hi, ok_bind, rd_vecAt cols j0 hj, ok_bind, Rel.dget_ok hB _ i0 i1 j0 j1, ok_bind,
      Rel.dget_flat hE (by rw [e1]; exact a0) (by rw [e1, e2]; exact a1), ok_bind, e1]
    obtain ⟨F, f1, f2, f3, f4, f5⟩ := Rel.dput_size hE (vecAt E.data (vecAt rows i + vecAt cols j * D.rows) + B.entry i j) (i := vecAt rows i)
      (j := vecAt cols j) (by rw [e1, e2]; exact ⟨a0, a1⟩)
    rw [e1] at f5
    have hsz := hE.size
    rw [e1, e2] at hsz
    refine ⟨F, f1, f2, by omega, by omega, ?_⟩
    intro p p0 p1
    rw [f5]
    by_cases h : vecAt rows i + vecAt cols j * D.rows = p
    · rw [if_pos h, h, rd_eq_ok]
      exact ⟨p0, List.getElem?_set_self (by omega)⟩
    · rw [if_neg h, add_zero, ← rd_vecAt E.data p0 (by omega)]
      unfold rd
      rw [if_pos p0, if_pos p0, List.getElem?_set_ne (by omega)]
  constructor
  · intro h
    let I : (Int → R) → Dense R → Prop := fun g E => E.WF ∧ E.rows = D.rows ∧ E.cols = D.cols ∧
      ∀ p, 0 ≤ p → p < D.rows * D.cols → rd E.data p = .ok (vecAt D.data p + g p)
    obtain ⟨E, h1, h2, h3, h4, h5⟩ := forUp_inv n0 (s := D) (f := fun j D => forUp 0 B.rows D (fun i D => do
      let r ← rd rows i
      let c ← rd cols j
      let x ← Rel.dget .release B i j
      let old ← Rel.dget .release D r c
      Rel.dput .release D r c (old + x)))
      (fun k E => I (fun p => ∑ j ∈ Finset.Ico 0 k, ∑ i ∈ Finset.Ico 0 B.rows, if vecAt rows i + vecAt cols j * D.rows = p then B.entry i j else 0) E)
      ⟨hD, rfl, rfl, fun p p0 p1 => by
        beta_reduce
        rw [Finset.Ico_self, Finset.sum_empty, add_zero]
        exact rd_vecAt _ p0 (by rw [hD.size]; exact p1)⟩ (by
        rintro k E k0 k1 ⟨w, e1, e2, e3⟩
        obtain ⟨F, f1, f2, f3, f4, f5⟩ := forUp_inv m0 (s := E) (f := fun i D => do
          let r ← rd rows i
          let c ← rd cols k
          let x ← Rel.dget .release B i k
          let old ← Rel.dget .release D r c
          Rel.dput .release D r c (old + x))
          (fun q F => I (fun p => (∑ j ∈ Finset.Ico 0 k, ∑ i ∈ Finset.Ico 0 B.rows, if vecAt rows i + vecAt cols j * D.rows = p then B.entry i j else 0) +
            ∑ i ∈ Finset.Ico 0 q, if vecAt rows i + vecAt cols k * D.rows = p then B.entry i k else 0) F)
          ⟨w, e1, e2, fun p p0 p1 => by
            beta_reduce
            rw [Finset.Ico_self, Finset.sum_empty, add_zero]
            exact e3 p p0 p1⟩ (by
            rintro q F q0 q1 ⟨v, g1, g2, g3⟩
            obtain ⟨hi, hj, a0, a1⟩ := h q k q0 q1 k0 k1
            obtain ⟨G, b1, b2, b3, b4, b5⟩ := hgood q k F q0 q1 k0 k1 v g1 g2 hi hj a0 a1
            refine ⟨G, b1, b2, b3, b4, ?_⟩
            intro p p0 p1
            have h6 := g3 p p0 p1
            rw [rd_vecAt F.data p0 (by rw [v.size, g1, g2]; exact p1)] at h6
            rw [b5 p p0 p1, Except.ok.inj h6]
            beta_reduce
            rw [sum_Ico_succ _ q0, add_assoc, add_assoc])
        refine ⟨F, f1, f2, f3, f4, ?_⟩
        intro p p0 p1
        rw [f5 p p0 p1]
        beta_reduce
        rw [sum_Ico_succ _ k0])
    exact ⟨E, h1, h2, h3, h4, h5⟩
  · intro h
    have hout : ∀ (i j : Int) (E : Dense R), 0 ≤ i → i < B.rows → 0 ≤ j → j < B.cols → E.WF ∧ E.rows = D.rows ∧ E.cols = D.cols →
        ¬ (i < rows.length ∧ j < cols.length ∧ 0 ≤ vecAt rows i + vecAt cols j * D.rows ∧ vecAt rows i + vecAt cols j * D.rows < D.rows * D.cols) → (do
          let r ← rd rows i
          let c ← rd cols j
          let x ← Rel.dget .release B i j
          let old ← Rel.dget .release E r c
          Rel.dput .release E r c (old + x) : Res (Dense R)) = .error .outOfBounds := by
      rintro i j E i0 i1 j0 j1 ⟨hE, e1, e2⟩ hn
      by_cases hi : i < (rows.length : Int)
      · rw [rd_vecAt rows i0 hi, ok_bind]
        by_cases hj : j < (cols.length : Int)
        · rw [rd_vecAt cols j0 hj, ok_bind, Rel.dget_ok hB _ i0 i1 j0 j1, ok_bind, Rel.dget_out hE (by
            rw [e1, e2]
            by_contra hh
            exact hn ⟨hi, hj, by omega, by omega⟩)]
          rfl
        · rw [rd_oob (by omega)]
          rfl
      · rw [rd_oob (by omega)]
        rfl
    have hstep : ∀ (i j : Int) (E : Dense R), 0 ≤ i → i < B.rows → 0 ≤ j → j < B.cols → E.WF ∧ E.rows = D.rows ∧ E.cols = D.cols →
        (do
          let r ← rd rows i
          let c ← rd cols j
          let x ← Rel.dget .release B i j
          let old ← Rel.dget .release E r c
          Rel.dput .release E r c (old + x) : Res (Dense R)) = .error .outOfBounds ∨ ∃ F, (do
          let r ← rd rows i
          let c ← rd cols j
          let x ← Rel.dget .release B i j
          let old ← Rel.dget .release E r c
          Rel.dput .release E r c (old + x) : Res (Dense R)) = .ok F ∧ F.WF ∧ F.rows = D.rows ∧ F.cols = D.cols := by
      intro i j E i0 i1 j0 j1 hE
      by_cases hc : i < rows.length ∧ j < cols.length ∧ 0 ≤ vecAt rows i + vecAt cols j * D.rows ∧ vecAt rows i + vecAt cols j * D.rows < D.rows * D.cols
      · right
        obtain ⟨F, f1, f2, f3, f4, -⟩ := hgood i j E i0 i1 j0 j1 hE.1 hE.2.1 hE.2.2 hc.1 hc.2.1 hc.2.2.1 hc.2.2.2
        exact ⟨F, f1, f2, f3, f4⟩
      · left
        exact hout i j E i0 i1 j0 j1 hE hc
    push Not at h
    obtain ⟨i, j, i0, i1, j0, j1, hb⟩ := h
    have hb' : ¬ (i < rows.length ∧ j < cols.length ∧ 0 ≤ vecAt rows i + vecAt cols j * D.rows ∧
        vecAt rows i + vecAt cols j * D.rows < D.rows * D.cols) := fun ⟨x1, x2, x3, x4⟩ => absurd (hb x1 x2 x3) (by omega)
    refine forUp_stops (fun (E : Dense R) => E.WF ∧ E.rows = D.rows ∧ E.cols = D.cols) .outOfBounds ⟨hD, rfl, rfl⟩ ?_ ⟨j, j0, j1, ?_⟩
    · intro b E b0 b1 hE
      exact forUp_either (fun (E : Dense R) => E.WF ∧ E.rows = D.rows ∧ E.cols = D.cols) .outOfBounds hE fun a E a0 a1 hE => hstep a b E a0 a1 b0 b1 hE
    · intro E hE
      exact forUp_stops (fun (E : Dense R) => E.WF ∧ E.rows = D.rows ∧ E.cols = D.cols) .outOfBounds hE (fun a E a0 a1 hE => hstep a j E a0 a1 j0 j1 hE)
        ⟨i, i0, i1, fun E hE => hout i j E i0 i1 j0 j1 hE hb'⟩

/-- Writing the transposed block is writing a block with its elements. -/
theorem Rel.dsetSubT_eq [Zero α] (D B T : Dense α) (hB : B.WF) (hT : T.Is B.cols B.rows (fun i j => B.entry j i)) (si sj : Int) :
    Rel.dsetSubT .release D si sj B = Rel.dsetSub .release D si sj T := by
  show forUp 0 (sj + B.rows - sj) D (fun j D => forUp 0 (si + B.cols - si) D _) = forUp 0 (sj + T.cols - sj) D (fun j D => forUp 0 (si + T.rows - si) D _)
  rw [hT.rows_eq, hT.cols_eq]
  refine forUp_congr _ fun j E j0 j1 => forUp_congr _ fun i F i0 i1 => ?_
  have e1 : Rel.dget .release B j i = .ok (B.entry j i) := Rel.dget_ok hB _ j0 (by omega) i0 (by omega)
  have e2 : Rel.dget .release T i j = .ok (T.entry i j) := Rel.dget_ok hT.wf _ i0 (by rw [hT.rows_eq]; omega) j0 (by rw [hT.cols_eq]; omega)
  have e3 : T.entry i j = B.entry j i := by
    have h1 := hT.get_eq i j i0 (by omega) j0 (by omega)
    have h2 := hT.wf.is_entry.get_eq i j i0 (by rw [hT.rows_eq]; omega) j0 (by rw [hT.cols_eq]; omega)
    rw [h1] at h2
    exact (Except.ok.inj h2).symm
  rw [e1, e2, e3]

/-- There is a matrix with the transposed elements. -/
theorem Dense.exists_transposed [Zero α] (B : Dense α) (hB : B.WF) : ∃ T : Dense α, T.Is B.cols B.rows (fun i j => B.entry j i) := by
  have hr := hB.rows_nonneg
  have hc := hB.cols_nonneg
  obtain ⟨m, hm⟩ : ∃ m : Nat, B.cols = m := ⟨B.cols.toNat, by omega⟩
  obtain ⟨n, hn⟩ : ∃ n : Nat, B.rows = n := ⟨B.rows.toNat, by omega⟩
  rw [hm, hn]
  exact ⟨_, Dense.is_ofFn m n _⟩

/-- **C146.**  `SetSubMatrixTranspose(si, sj, dense)` at any place: it works exactly if the block is empty or the first and last elements written have
addresses in the buffer.  Exactly the addresses of the transposed block are written.  Each holds its element, unless a later column written has the same
address, which needs a block with more columns than the matrix has rows. -/
theorem C146_setSubT [Zero α] (D B : Dense α) (hD : D.WF) (hB : B.WF) (si sj : Int) :
    (B.cols = 0 ∨ B.rows = 0 ∨ (0 ≤ si + sj * D.rows ∧ (si + B.cols - 1) + (sj + B.rows - 1) * D.rows < D.rows * D.cols) →
      ∃ E, Rel.dsetSubT .release D si sj B = .ok E ∧ E.WF ∧ E.rows = D.rows ∧ E.cols = D.cols ∧
        (∀ p, (∀ i j, 0 ≤ i → i < B.cols → 0 ≤ j → j < B.rows → (i + si) + (j + sj) * D.rows ≠ p) → rd E.data p = rd D.data p) ∧
        (∀ i j, 0 ≤ i → i < B.cols → 0 ≤ j → j < B.rows →
          (∀ i' j', 0 ≤ i' → i' < B.cols → j < j' → j' < B.rows → (i' + si) + (j' + sj) * D.rows ≠ (i + si) + (j + sj) * D.rows) →
          rd E.data ((i + si) + (j + sj) * D.rows) = .ok (B.entry j i))) ∧
    (¬ (B.cols = 0 ∨ B.rows = 0 ∨ (0 ≤ si + sj * D.rows ∧ (si + B.cols - 1) + (sj + B.rows - 1) * D.rows < D.rows * D.cols)) →
      Rel.dsetSubT .release D si sj B = .error .outOfBounds) := by
  obtain ⟨T, hT⟩ := B.exists_transposed hB
  rw [Rel.dsetSubT_eq D B T hB hT]
  have h := C144_setSub D T hD hT.wf si sj
  rw [hT.rows_eq, hT.cols_eq] at h
  refine ⟨fun hc => ?_, h.2⟩
  obtain ⟨E, e1, e2, e3, e4, e5, e6⟩ := h.1 hc
  refine ⟨E, e1, e2, e3, e4, e5, fun i j i0 i1 j0 j1 hl => ?_⟩
  rw [e6 i j i0 i1 j0 j1 hl]
  have h1 := hT.get_eq i j i0 i1 j0 j1
  have h2 := hT.wf.is_entry.get_eq i j i0 (by rw [hT.rows_eq]; exact i1) j0 (by rw [hT.cols_eq]; exact j1)
  rw [h1] at h2
  rw [Except.ok.inj h2]

/-- **C146.**  A transposed block that is in range, with assertions or without, sets its elements and no others. -/
theorem C146_setSubT_inside [Zero α] (D B : Dense α) (hD : D.WF) (hB : B.WF) (si sj : Int) (h0 : 0 ≤ si) (h1 : si + B.cols ≤ D.rows) (h2 : 0 ≤ sj)
    (h3 : sj + B.rows ≤ D.cols) :
    ∃ E, Rel.dsetSubT .release D si sj B = .ok E ∧ E.Is D.rows D.cols
      (fun i j => if si ≤ i ∧ i < si + B.cols ∧ sj ≤ j ∧ j < sj + B.rows then B.entry (j - sj) (i - si) else D.entry i j) := by
  obtain ⟨T, hT⟩ := B.exists_transposed hB
  rw [Rel.dsetSubT_eq D B T hB hT]
  obtain ⟨E, e1, e2⟩ := C144_setSub_inside D T hD hT.wf si sj h0 (by rw [hT.rows_eq]; exact h1) h2 (by rw [hT.cols_eq]; exact h3)
  refine ⟨E, e1, e2.congr ?_⟩
  intro i j i0 i1 j0 j1
  rw [hT.rows_eq, hT.cols_eq]
  split
  · rename_i hc
    have h4 := hT.get_eq (i - si) (j - sj) (by omega) (by omega) (by omega) (by omega)
    have h5 := hT.wf.is_entry.get_eq (i - si) (j - sj) (by omega) (by rw [hT.rows_eq]; omega) (by omega) (by rw [hT.cols_eq]; omega)
    rw [h4] at h5
    exact (Except.ok.inj h5).symm
  · rfl

/-! ## Concrete cases -/

/-- Lists that are too long, an address that is used twice, a row that does not exist and lists that are too short. -/
example : Rel.daddSub .release C144_D [0, 1, 7] [2, 0, 9] ⟨2, 1, [10, 20]⟩ = .ok ⟨2, 3, [1, 2, 3, 4, 15, 26]⟩ ∧
    Rel.daddSub .debug C144_D [0, 1, 7] [2, 0, 9] ⟨2, 1, [10, 20]⟩ = .error .assertFail ∧
    Rel.daddSub .release C144_D [2, 0] [0, 1] ⟨2, 2, [10, 20, 30, 40]⟩ = .ok ⟨2, 3, [21, 2, 53, 4, 35, 6]⟩ ∧
    Rel.daddSub .debug C144_D [2, 0] [0, 1] ⟨2, 2, [10, 20, 30, 40]⟩ = .error .assertFail ∧
    Rel.daddSub .release C144_D [2] [2] ⟨1, 1, [10]⟩ = .error .outOfBounds ∧
    Rel.daddSub .release C144_D [0] [2] ⟨2, 1, [10, 20]⟩ = .error .outOfBounds ∧
    Rel.daddSub .release C144_D [0, 1] [] ⟨2, 1, [10, 20]⟩ = .error .outOfBounds := by decide +kernel

example : Rel.dsetSubT .release C144_D 0 1 ⟨2, 2, [11, 12, 13, 14]⟩ = .ok ⟨2, 3, [1, 2, 11, 13, 12, 14]⟩ ∧
    Rel.dsetSubT .release C144_D 0 0 ⟨2, 3, [11, 12, 13, 14, 15, 16]⟩ = .ok ⟨2, 3, [11, 13, 12, 14, 16, 6]⟩ ∧
    Rel.dsetSubT .debug C144_D 0 0 ⟨2, 3, [11, 12, 13, 14, 15, 16]⟩ = .error .assertFail ∧
    Rel.dsetSubT .release C144_D 1 1 ⟨2, 2, [11, 12, 13, 14]⟩ = .error .outOfBounds := by decide +kernel

/-- The hypotheses of the theorems hold in such cases. -/
example : Rel.daddSub .release C144_D [2] [2] ⟨1, 1, [10]⟩ = .error .outOfBounds :=
  (C146_addSub C144_D ⟨1, 1, [10]⟩ C144_D_wf ⟨by decide, by decide, by decide⟩ [2] [2]).2 (fun h =>
    absurd (h 0 0 (by decide) (by decide) (by decide) (by decide)).2.2.2 (by decide))

example : ∃ E, Rel.daddSub .release C144_D [2, 0] [0, 1] ⟨2, 2, [10, 20, 30, 40]⟩ = .ok E ∧ rd E.data 2 = .ok 53 := by
  obtain ⟨E, h1, -, -, -, h2⟩ := (C146_addSub C144_D ⟨2, 2, [10, 20, 30, 40]⟩ C144_D_wf ⟨by decide, by decide, by decide⟩ [2, 0] [0, 1]).1 (by
    intro i j i0 i1 j0 j1
    have hi : i = 0 ∨ i = 1 := by change i < 2 at i1; omega
    have hj : j = 0 ∨ j = 1 := by change j < 2 at j1; omega
    rcases hi with rfl | rfl <;> rcases hj with rfl | rfl <;> decide)
  exact ⟨E, h1, (h2 2 (by decide) (by decide)).trans (by decide +kernel)⟩

example : ∃ E, Rel.dsetSubT .release C144_D 0 1 ⟨2, 2, [11, 12, 13, 14]⟩ = .ok E ∧ E.rows = 2 := by
  obtain ⟨E, h1, h2⟩ := C146_setSubT_inside C144_D ⟨2, 2, [11, 12, 13, 14]⟩ C144_D_wf ⟨by decide, by decide, by decide⟩ 0 1 (by decide) (by decide)
    (by decide) (by decide)
  exact ⟨E, h1, h2.rows_eq⟩

example : Rel.dsetSubT .release C144_D 1 1 ⟨2, 2, [11, 12, 13, 14]⟩ = .error .outOfBounds :=
  (C146_setSubT C144_D ⟨2, 2, [11, 12, 13, 14]⟩ C144_D_wf ⟨by decide, by decide, by decide⟩ 1 1).2 (by decide)

end Linalg
