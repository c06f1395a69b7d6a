import Verif.Model.ReleaseMisc
import Verif.Props.ReleaseDense2
import Verif.Props.Vector
import Verif.Props.ReleaseLil

/-! # C145: extremes, selections, stacking and timers without assertions -/

namespace Linalg
open Cpp

variable {α : Type}

theorem assert_empty {p : Prop} [Decidable p] (h : ¬ p) (f : Unit → Res α) : (Build.debug.assert p >>= f) = .error .assertFail := by
  show (cassert p >>= f) = _
  rw [cassert_false h]
  rfl

/-- **C145.**  With assertions the functions are those of the other models. -/
theorem C145_debug :
    (∀ [LinearOrder α] (x : List α), Rel.vmax .debug x = Vec.max x ∧ Rel.vmin .debug x = Vec.min x) ∧
    (∀ [LinearOrder α] [AddGroup α] (x : List α), Rel.vabsMax .debug x = Vec.absMax x ∧ Rel.vabsMin .debug x = Vec.absMin x) ∧
    (∀ [LinearOrder α] (D : Dense α), Rel.dmax .debug D = D.max ∧ Rel.dmin .debug D = D.min) ∧
    (∀ [Zero α] [Add α] (D : Dense α), Rel.dsum .debug D = D.sum) ∧
    (∀ [Zero α] (x : List α) (ix : List Int) (v : List α), Rel.getSubVector .debug x ix v = Vec.getSubVector x ix v) ∧
    (∀ [Sub α] (T : Util.Timer α) (k : Int), Rel.timerGet .debug T k = T.get k) ∧
    (∀ [Zero α] (D : Dense α) (rows : List Int), Rel.dgetRowIdx .debug D rows = D.getRowIdx rows) ∧
    ∀ [Zero α] (ds : List (Dense α)) (o : Dense α), Rel.hstackInto .debug ds o = Dense.hstackInto ds o := by
  refine ⟨fun x => ?_, fun x => ?_, fun D => ?_, fun D => rfl, fun x ix v => rfl, fun T k => rfl, fun D rows => rfl, fun ds o => ?_⟩
  · cases x with
    | nil => exact ⟨assert_empty (by simp) _, assert_empty (by simp) _⟩
    | cons a l => exact ⟨by unfold Rel.vmax; rw [show Build.debug.assert ((a :: l).length > 0) = .ok () from cassert_true (by simp)]; rfl,
        by unfold Rel.vmin; rw [show Build.debug.assert ((a :: l).length > 0) = .ok () from cassert_true (by simp)]; rfl⟩
  · cases x with
    | nil => exact ⟨assert_empty (by simp) _, assert_empty (by simp) _⟩
    | cons a l => exact ⟨by unfold Rel.vabsMax; rw [show Build.debug.assert ((a :: l).length > 0) = .ok () from cassert_true (by simp)]; rfl,
        by unfold Rel.vabsMin; rw [show Build.debug.assert ((a :: l).length > 0) = .ok () from cassert_true (by simp)]; rfl⟩
  · obtain ⟨r, c, d⟩ := D
    cases d with
    | nil => exact ⟨assert_empty (by simp) _, assert_empty (by simp) _⟩
    | cons a l => exact ⟨by unfold Rel.dmax; rw [show Build.debug.assert ((a :: l).length ≠ 0) = .ok () from cassert_true (by simp)]; rfl,
        by unfold Rel.dmin; rw [show Build.debug.assert ((a :: l).length ≠ 0) = .ok () from cassert_true (by simp)]; rfl⟩
  · cases ds <;> rfl

theorem Refines.dsetColBlock (D : Dense α) (k : Int) (B : Dense α) : Refines (Rel.dsetColBlock .debug D k B) (Rel.dsetColBlock .release D k B) :=
  (Refines.drange _ _ _ _ _).bind fun _ => Refines.forUp fun j _ => Refines.forUp fun i _ => (Refines.dget B i j).bind fun _ => Refines.dput _ _ _ _

/-- **C145.**  A call that passes the assertions gives the same result when they are compiled away. -/
theorem C145_same :
    (∀ [LinearOrder α] (x : List α), Refines (Vec.max x) (Rel.vmax .release x) ∧ Refines (Vec.min x) (Rel.vmin .release x)) ∧
    (∀ [LinearOrder α] [AddGroup α] (x : List α), Refines (Vec.absMax x) (Rel.vabsMax .release x) ∧ Refines (Vec.absMin x) (Rel.vabsMin .release x)) ∧
    (∀ [LinearOrder α] (D : Dense α), Refines D.max (Rel.dmax .release D) ∧ Refines D.min (Rel.dmin .release D)) ∧
    (∀ [Zero α] [Add α] (D : Dense α), Refines D.sum (Rel.dsum .release D)) ∧
    (∀ [Zero α] (x : List α) (ix : List Int) (v : List α), Refines (Vec.getSubVector x ix v) (Rel.getSubVector .release x ix v)) ∧
    (∀ [Sub α] (T : Util.Timer α) (k : Int), Refines (T.get k) (Rel.timerGet .release T k)) ∧
    (∀ [Zero α] (D : Dense α) (rows : List Int), Refines (D.getRowIdx rows) (Rel.dgetRowIdx .release D rows)) ∧
    ∀ [Zero α] (ds : List (Dense α)) (o : Dense α), Refines (Dense.hstackInto ds o) (Rel.hstackInto .release ds o) := by
  refine ⟨fun x => ?_, fun x => ?_, fun D => ?_, fun D => ?_, fun x ix v => ?_, fun T k => ?_, fun D rows => ?_, fun ds o => ?_⟩
  · rw [← (C145_debug.1 x).1, ← (C145_debug.1 x).2]
    exact ⟨(Refines.assert _).bind fun _ => Refines.refl _, (Refines.assert _).bind fun _ => Refines.refl _⟩
  · rw [← (C145_debug.2.1 x).1, ← (C145_debug.2.1 x).2]
    exact ⟨(Refines.assert _).bind fun _ => Refines.refl _, (Refines.assert _).bind fun _ => Refines.refl _⟩
  · rw [← (C145_debug.2.2.1 D).1, ← (C145_debug.2.2.1 D).2]
    exact ⟨(Refines.assert _).bind fun _ => Refines.refl _, (Refines.assert _).bind fun _ => Refines.refl _⟩
  · exact (Refines.assert _).bind fun _ => Refines.refl _
  · exact (Refines.refl _).bind fun _ => Refines.forUp fun i _ => (Refines.refl _).bind fun _ => (Refines.assert _).bind fun _ =>
      (Refines.assert _).bind fun _ => (Refines.vrd x _).bind fun _ => Refines.vwr _ _ _
  · exact (Refines.assert _).bind fun _ => (Refines.assert _).bind fun _ => Refines.refl _
  · exact (Refines.refl _).bind fun _ => (Refines.assert _).bind fun _ => (Refines.assert _).bind fun _ => Refines.forUp fun i _ =>
      (Refines.refl _).bind fun _ => Refines.forUp fun j _ => (Refines.dget D _ _).bind fun _ => Refines.dput _ _ _ _
  · rw [← C145_debug.2.2.2.2.2.2.2]
    cases ds with
    | nil => exact Refines.refl _
    | cons d0 rest =>
      unfold Rel.hstackInto
      dsimp only
      refine (Refines.foldlM fun _ _ => Refines.assert _).bind fun _ => (Refines.refl _).bind fun _ => Refines.bind (Refines.foldlM fun s B => ?_) fun _ => Refines.refl _
      split
      · exact (Refines.dsetColBlock s.1 s.2 B).bind fun _ => Refines.refl _
      · exact Refines.refl _

/-! ## Extremes -/

/-- **C145.**  The extremes of an empty vector or matrix are read behind the end of the memory; all others are those with assertions.  `Sum` of an empty matrix
is zero. -/
theorem C145_extremes [LinearOrder α] [AddGroup α] (x : List α) (D : Dense α) :
    (Rel.vmax .release x = if x = [] then .error .outOfBounds else Vec.max x) ∧ (Rel.vmin .release x = if x = [] then .error .outOfBounds else Vec.min x) ∧
    (Rel.vabsMax .release x = if x = [] then .error .outOfBounds else Vec.absMax x) ∧
    (Rel.vabsMin .release x = if x = [] then .error .outOfBounds else Vec.absMin x) ∧
    (Rel.dmax .release D = if D.data = [] then .error .outOfBounds else D.max) ∧ (Rel.dmin .release D = if D.data = [] then .error .outOfBounds else D.min) ∧
    (Rel.dsum .release D = if D.data = [] then .ok 0 else D.sum) := by
  refine ⟨?_, ?_, ?_, ?_, ?_, ?_, ?_⟩
  · cases x <;> rfl
  · cases x <;> rfl
  · cases x <;> rfl
  · cases x <;> rfl
  · obtain ⟨r, c, d⟩ := D; cases d <;> rfl
  · obtain ⟨r, c, d⟩ := D; cases d <;> rfl
  · obtain ⟨r, c, d⟩ := D
    cases d with
    | nil => rfl
    | cons a l =>
      rw [if_neg (by simp)]
      unfold Dense.sum
      rw [cassert_true (by simp)]
      rfl

/-! ## Selections -/

/-- **C145.**  `GetSubVector(indices, vect)` works exactly if all indices are in range. -/
theorem C145_getSubVector [Zero α] (x : List α) (ix : List Int) (v : List α) :
    ((∀ k ∈ ix, 0 ≤ k ∧ k < x.length) → ∃ y, Rel.getSubVector .release x ix v = .ok y ∧ VecIs y ix.length (fun i => vecAt x (vecAt ix i))) ∧
    (¬ (∀ k ∈ ix, 0 ≤ k ∧ k < x.length) → Rel.getSubVector .release x ix v = .error .outOfBounds) := by
  constructor
  · intro h
    obtain ⟨y, h1, h2⟩ := C32_getSubVector x ix v h
    exact ⟨y, C145_same.2.2.2.2.1 x ix v y h1, h2⟩
  · intro h
    push Not at h
    obtain ⟨k, hk, hbad⟩ := h
    obtain ⟨w, h1, h2, -, -⟩ := (C32_setSize v ix.length 0).1 (by omega)
    unfold Rel.getSubVector
    rw [h1, ok_bind]
    refine forUp_fails (fun _ (v : List α) => (v.length : Int) = ix.length) (fun i => 0 ≤ vecAt ix i ∧ vecAt ix i < x.length) .outOfBounds h2 ?_ ?_ ?_
    · intro i v i0 i1 hv hg
      rw [rd_vecAt ix i0 i1, ok_bind]
      show ∃ s', (rd x (vecAt ix i) >>= fun a => wr v i a) = .ok s' ∧ _
      rw [rd_vecAt x hg.1 hg.2, ok_bind, wr_int i0 (by omega)]
      exact ⟨_, rfl, by simpa using hv⟩
    · intro i v i0 i1 hv hg
      rw [rd_vecAt ix i0 i1, ok_bind]
      show (rd x (vecAt ix i) >>= fun a => wr v i a) = _
      rw [rd_oob (by omega)]
      rfl
    · obtain ⟨p, hp, rfl⟩ := List.getElem_of_mem hk
      refine ⟨p, by omega, by omega, fun hg => ?_⟩
      have e : vecAt ix (p : Int) = ix[p] := by
        have := rd_vecAt ix (c := (p : Int)) (by omega) (by omega)
        rw [rd_nat hp] at this
        exact (Except.ok.inj this).symm
      rw [e] at hg
      exact absurd hg.2 (by have := hbad hg.1; omega)

/-- **C145.**  `Timer::operator[]` works exactly if there are clicks `index` and `index + 1`. -/
theorem C145_timer [Zero α] [Sub α] (T : Util.Timer α) (k : Int) :
    (0 ≤ k ∧ k + 1 < T.times.length → Rel.timerGet .release T k = .ok (vecAt T.times (k + 1) - vecAt T.times k)) ∧
    (¬ (0 ≤ k ∧ k + 1 < T.times.length) → Rel.timerGet .release T k = .error .outOfBounds) := by
  constructor
  · intro h
    show (rd T.times (k + 1) >>= fun b => rd T.times k >>= fun a => .ok (b - a)) = _
    rw [rd_vecAt _ (by omega) (by omega), ok_bind, rd_vecAt _ (by omega) (by omega), ok_bind]
  · intro h
    show (rd T.times (k + 1) >>= fun b => rd T.times k >>= fun a => .ok (b - a)) = _
    by_cases h1 : 0 ≤ k + 1 ∧ k + 1 < T.times.length
    · rw [rd_vecAt _ (by omega) (by omega), ok_bind, rd_oob (by omega)]
      rfl
    · rw [rd_oob (by omega)]
      rfl

/-- **C145.**  `GetRow(rows)` works exactly if the matrix has no columns or all rows are in range. -/
theorem C145_getRows [Zero α] (D : Dense α) (hD : D.WF) (rows : List Int) :
    (D.cols = 0 ∨ (∀ k ∈ rows, 0 ≤ k ∧ k < D.rows) →
      ∃ E, Rel.dgetRowIdx .release D rows = .ok E ∧ E.Is rows.length D.cols (fun i j => D.entry (vecAt rows i) j)) ∧
    (¬ (D.cols = 0 ∨ (∀ k ∈ rows, 0 ≤ k ∧ k < D.rows)) → Rel.dgetRowIdx .release D rows = .error .outOfBounds) := by
  have r0 := hD.rows_nonneg
  obtain ⟨n, hn⟩ : ∃ n : Nat, D.cols = n := ⟨D.cols.toNat, by have := hD.cols_nonneg; omega⟩
  have hmem : ∀ i : Int, 0 ≤ i → i < rows.length → vecAt rows i ∈ rows := by
    intro i i0 i1
    have := rd_vecAt rows i0 i1
    rw [rd_eq_ok] at this
    exact List.mem_of_getElem? this.2
  have hl : Rel.dgetRowIdx .release D rows = forUp 0 (rows.length : Int) (Dense.ofFn rows.length n (fun _ _ => (0 : α))) (fun i dense => do
      let row ← rd rows i
      forUp 0 (n : Int) dense (fun j dense => do
        let x ← Rel.dget .release D row j
        Rel.dput .release dense i j x)) := by
    unfold Rel.dgetRowIdx
    rw [hn, Dense.zeros_ofFn, ok_bind]
    rfl
  rw [hl]
  constructor
  · intro h
    refine ⟨Dense.ofFn rows.length n (fun i j => D.entry (vecAt rows i) j), ?_, by rw [hn]; exact Dense.is_ofFn _ _ _⟩
    rw [← Dense.fullLoopRow (m := rows.length) (n := n) (fun _ _ => (0 : α)) (fun i j => D.entry (vecAt rows i) j)
      (fun i j dense => (do
        let x ← Rel.dget .release D (vecAt rows i) j
        Rel.dput .release dense i j x : Res (Dense α))) (by
        intro i j g i0 i1 j0 j1 _
        have hk : 0 ≤ vecAt rows i ∧ vecAt rows i < D.rows := by
          rcases h with h | h
          · omega
          · exact h _ (hmem i i0 i1)
        rw [Rel.dget_ok hD _ hk.1 hk.2 j0 (by omega), ok_bind, Rel.dput_ofFn _ i0 i1 j0 j1, Dense.put_ofFn _ i0 i1 j0 j1])]
    refine forUp_congr (s := _) ?_
    intro i s i0 i1
    rw [rd_vecAt rows i0 i1, ok_bind]
  · intro h
    push Not at h
    obtain ⟨h1, k, hk, hbad⟩ := h
    let I : Dense α → Prop := fun E => E.WF ∧ E.rows = rows.length ∧ E.cols = n
    have hstep : ∀ (row i j : Int) (E : Dense α), 0 ≤ i → i < (rows.length : Int) → 0 ≤ j → j < (n : Int) → I E →
        (do
          let x ← Rel.dget .release D row j
          Rel.dput .release E i j x : Res (Dense α)) = .error .outOfBounds ∨ ∃ F, (do
          let x ← Rel.dget .release D row j
          Rel.dput .release E i j x : Res (Dense α)) = .ok F ∧ I F := by
      rintro row i j E i0 i1 j0 j1 ⟨hE, e1, e2⟩
      by_cases hc : 0 ≤ row + j * D.rows ∧ row + j * D.rows < D.rows * D.cols
      · right
        rw [Rel.dget_flat hD hc.1 hc.2, ok_bind]
        obtain ⟨F, f1, f2, f3, f4⟩ := Rel.dput_keep hE i0 (by omega) j0 (by omega) (vecAt D.data (row + j * D.rows))
        exact ⟨F, f1, f2, by omega, by omega⟩
      · left
        rw [Rel.dget_out hD (by omega)]
        rfl
    obtain ⟨p, hp, hpk⟩ := List.getElem_of_mem hk
    refine forUp_stops I .outOfBounds ⟨(Dense.is_ofFn _ _ _).wf, rfl, rfl⟩ ?_ ⟨p, by omega, by omega, ?_⟩
    · intro i E i0 i1 hE
      rw [rd_vecAt rows i0 i1, ok_bind]
      exact forUp_either I .outOfBounds hE fun j E j0 j1 hE => hstep _ i j E i0 i1 j0 j1 hE
    · intro E hE
      rw [rd_nat hp, ok_bind, hpk]
      refine forUp_stops I .outOfBounds hE (fun j E j0 j1 hE => hstep k p j E (by omega) (by omega) j0 j1 hE) ?_
      by_cases k0 : 0 ≤ k
      · refine ⟨(n : Int) - 1, by omega, by omega, fun E _ => ?_⟩
        have := hbad k0
        rw [Rel.dget_out hD (Or.inr (by rw [← hn, flat_last]; omega))]
        rfl
      · refine ⟨0, le_rfl, by omega, fun E _ => ?_⟩
        rw [Rel.dget_out hD (Or.inl (by rw [zero_mul]; omega))]
        rfl

/-! ## Stacking -/

theorem Rel.dsetColBlock_loop (D B : Dense α) (k : Int) : Rel.dsetColBlock .release D k B = forUp 0 B.cols D (fun j E => forUp 0 D.rows E (fun i E => do
    let x ← Rel.dget .release B i j
    Rel.dput .release E (i + 0) (j + k) x)) := by
  show forUp 0 (k + B.cols - k) D (fun j E => forUp 0 (D.rows - 0) E _) = _
  rw [show k + B.cols - k = B.cols by omega, sub_zero]

theorem hstackRel_fold [Zero α] (r C : Nat) (ds : List (Dense α)) (h : ∀ D ∈ ds, D.WF ∧ (0 < r → 0 < D.cols → (r : Int) ≤ D.rows))
    (off : Int) (hoff : 0 ≤ off) (hC : off + totalCols ds ≤ C) (f : Int → Int → α) :
    ds.foldlM (fun (st : Dense α × Int) mat => do
      if mat.cols > 0 then
        let o ← Rel.dsetColBlock .release st.1 st.2 mat
        .ok (o, st.2 + mat.cols)
      else .ok st) (Dense.ofFn r C f, off)
    = (.ok (Dense.ofFn r C (fun a b => if off ≤ b ∧ b < off + totalCols ds then sideBySide ds a (b - off)
        else f a b), off + totalCols ds) : Res _) := by
  induction ds generalizing off f with
  | nil =>
    simp only [List.foldlM_nil, totalCols, List.map_nil, List.sum_nil, add_zero]
    show Except.ok _ = Except.ok _
    congr 2
    apply Dense.ofFn_congr
    intros
    rw [if_neg (by omega)]
  | cons D ds ih =>
    obtain ⟨hD, hDr⟩ := h D (by simp)
    have hc := hD.cols_nonneg
    have ht : totalCols (D :: ds) = D.cols + totalCols ds := by simp [totalCols]
    have htn : 0 ≤ totalCols ds := totalCols_nonneg (fun x hx => (h x (by simp [hx])).1)
    rw [ht] at hC ⊢
    rw [List.foldlM_cons]
    by_cases hpos : D.cols > 0
    · rw [if_pos hpos]
      obtain ⟨c, hcn⟩ : ∃ c : Nat, D.cols = c := ⟨D.cols.toNat, by omega⟩
      have hset : Rel.dsetColBlock .release (Dense.ofFn r C f) off D = .ok (Dense.ofFn r C (fun a b =>
          if off ≤ b ∧ b < off + D.cols then D.entry a (b - off) else f a b)) := by
        rw [Rel.dsetColBlock_loop, hcn]
        show forUp 0 (c : Int) (Dense.ofFn r C f) (fun j E => forUp 0 (r : Int) E _) = _
        rw [Dense.blockLoop f (fun i j => D.entry i j) 0 off le_rfl hoff (by omega) (by omega) _ (by
          intro i j g i0 i1 j0 j1 _
          have := hDr (by omega) (by omega)
          rw [Rel.dget_ok hD _ i0 (by omega) j0 (by omega), ok_bind, Rel.dput_ofFn _ (by omega) (by omega) (by omega) (by omega),
            Dense.put_ofFn _ (by omega) (by omega) (by omega) (by omega)])]
        congr 1
        apply Dense.ofFn_congr
        intro a b _ _ _ _
        rw [sub_zero]
        congr 1; apply propext; constructor <;> intro h <;> omega
      rw [hset]
      simp only [ok_bind]
      rw [ih (fun x hx => h x (by simp [hx])) (off + D.cols) (by omega) (by omega)]
      congr 2
      · apply Dense.ofFn_congr
        intro a b _ _ _ _
        simp only [sideBySide]
        by_cases h1 : off ≤ b ∧ b < off + D.cols
        · rw [if_neg (by omega), if_pos h1, if_pos (by omega), if_pos (by omega)]
        · rw [if_neg h1]
          by_cases h2 : off + D.cols ≤ b ∧ b < off + D.cols + totalCols ds
          · rw [if_pos h2, if_pos (by omega), if_neg (by omega)]; congr 1; omega
          · rw [if_neg h2, if_neg (by omega)]
      · omega
    · rw [if_neg hpos]
      have hz : D.cols = 0 := by omega
      simp only [ok_bind]
      rw [ih (fun x hx => h x (by simp [hx])) off hoff (by omega), hz, zero_add]
      congr 2
      apply Dense.ofFn_congr
      intro a b _ _ _ _
      by_cases h2 : off ≤ b ∧ b < off + totalCols ds
      · rw [if_pos h2, if_pos h2]; simp only [sideBySide, hz]; rw [if_neg (by omega), sub_zero]
      · rw [if_neg h2, if_neg h2]

/-- **C145.**  `HStack` works exactly if the first matrix has no rows or every matrix with columns has at least as many rows as the first.  The result has the
rows of the first matrix; further rows of the others are dropped. -/
theorem C145_hstack [Zero α] (D0 : Dense α) (rest : List (Dense α)) (out : Dense α) (h : ∀ D ∈ D0 :: rest, D.WF) :
    (D0.rows = 0 ∨ (∀ D ∈ D0 :: rest, 0 < D.cols → D0.rows ≤ D.rows) →
      ∃ E, Rel.hstackInto .release (D0 :: rest) out = .ok E ∧ E.Is D0.rows (totalCols (D0 :: rest)) (sideBySide (D0 :: rest))) ∧
    (¬ (D0.rows = 0 ∨ (∀ D ∈ D0 :: rest, 0 < D.cols → D0.rows ≤ D.rows)) → Rel.hstackInto .release (D0 :: rest) out = .error .outOfBounds) := by
  have htn : 0 ≤ totalCols (D0 :: rest) := totalCols_nonneg h
  obtain ⟨m, hm⟩ : ∃ m : Nat, D0.rows = m := ⟨D0.rows.toNat, by have := (h D0 (by simp)).rows_nonneg; omega⟩
  obtain ⟨n, hn⟩ : ∃ n : Nat, totalCols (D0 :: rest) = n := ⟨(totalCols (D0 :: rest)).toNat, by omega⟩
  obtain ⟨f, hf⟩ := Dense.setSize_ofFn out m n
  have hchk : ∀ l : List (Dense α), l.foldlM (fun (_ : Unit) mat => Build.release.assert (mat.rows = D0.rows)) () = .ok () := by
    intro l
    induction l with
    | nil => rfl
    | cons a l ih => exact ih
  have hl : Rel.hstackInto .release (D0 :: rest) out = ((D0 :: rest).foldlM (fun (st : Dense α × Int) mat => (do
      if mat.cols > 0 then
        let o ← Rel.dsetColBlock .release st.1 st.2 mat
        .ok (o, st.2 + mat.cols)
      else .ok st : Res _)) (Dense.ofFn m n f, (0 : Int)) >>= fun st => .ok st.1) := by
    unfold Rel.hstackInto
    simp only
    rw [hchk, ok_bind, sumCols_eq, hn, hm, hf, ok_bind]
  rw [hl]
  constructor
  · intro hg
    have hfold := hstackRel_fold m n (D0 :: rest) (fun D hD => ⟨h D hD, fun a b => by
      rcases hg with hg | hg
      · omega
      · rw [← hm]; exact hg D hD b⟩) 0 le_rfl (by omega) f
    refine ⟨Dense.ofFn m n (sideBySide (D0 :: rest)), ?_, by rw [hm, hn]; exact Dense.is_ofFn m n _⟩
    rw [hfold, ok_bind]
    congr 1
    dsimp only
    apply Dense.ofFn_congr
    intro a b _ _ _ _
    rw [if_pos (by omega), sub_zero]
  · intro hg
    push Not at hg
    obtain ⟨g1, B, hB, hBc, hBr⟩ := hg
    let J : Dense α → Prop := fun E => E.WF ∧ E.rows = m
    let I : Dense α × Int → Prop := fun st => J st.1
    have hstep : ∀ (mat E : Dense α) (k i j : Int), mat.WF → J E →
        (do
          let x ← Rel.dget .release mat i j
          Rel.dput .release E (i + 0) (j + k) x : Res (Dense α)) = .error .outOfBounds ∨ ∃ F, (do
          let x ← Rel.dget .release mat i j
          Rel.dput .release E (i + 0) (j + k) x : Res (Dense α)) = .ok F ∧ J F := by
      rintro mat E k i j hmat ⟨hE, e1⟩
      by_cases hc : 0 ≤ i + j * mat.rows ∧ i + j * mat.rows < mat.rows * mat.cols
      · rw [Rel.dget_flat hmat hc.1 hc.2, ok_bind]
        by_cases hw : 0 ≤ (i + 0) + (j + k) * E.rows ∧ (i + 0) + (j + k) * E.rows < E.rows * E.cols
        · right
          obtain ⟨F, f1, f2, f3, -⟩ := Rel.dput_size hE (vecAt mat.data (i + j * mat.rows)) hw
          exact ⟨F, f1, f2, by omega⟩
        · left
          exact Rel.dput_out hE _ (by omega)
      · left
        rw [Rel.dget_out hmat (by omega)]
        rfl
    have hset : ∀ (mat E : Dense α) (k : Int), mat.WF → J E →
        Rel.dsetColBlock .release E k mat = .error .outOfBounds ∨ ∃ F, Rel.dsetColBlock .release E k mat = .ok F ∧ J F := by
      intro mat E k hmat hE
      rw [Rel.dsetColBlock_loop]
      exact forUp_either J .outOfBounds hE fun j E' _ _ hE' => forUp_either J .outOfBounds hE' fun i E'' _ _ hE'' => hstep mat E'' k i j hmat hE''
    have hbad : ∀ (E : Dense α) (k : Int), J E → Rel.dsetColBlock .release E k B = .error .outOfBounds := by
      intro E k hE
      rw [Rel.dsetColBlock_loop]
      refine forUp_stops J .outOfBounds hE (fun j E' _ _ hE' => forUp_either J .outOfBounds hE' fun i E'' _ _ hE'' => hstep B E'' k i j (h B hB) hE'')
        ⟨B.cols - 1, by omega, by omega, fun E' hE' => ?_⟩
      have := hE.2
      refine forUp_stops J .outOfBounds hE' (fun i E'' _ _ hE'' => hstep B E'' k i _ (h B hB) hE'') ⟨(m : Int) - 1, by omega, by omega, fun E'' _ => ?_⟩
      rw [Rel.dget_out (h B hB) (Or.inr (by rw [flat_last]; omega))]
      rfl
    have hfold : ∀ (l : List (Dense α)) (st : Dense α × Int), (∀ D ∈ l, D.WF) → B ∈ l → I st → l.foldlM (fun (st : Dense α × Int) mat => (do
        if mat.cols > 0 then
          let o ← Rel.dsetColBlock .release st.1 st.2 mat
          .ok (o, st.2 + mat.cols)
        else .ok st : Res _)) st = .error .outOfBounds := by
      intro l
      induction l with
      | nil => intro st _ hm; cases hm
      | cons a l ih =>
        intro st hw hm hst
        rw [List.foldlM_cons]
        rcases List.mem_cons.1 hm with e | e
        · subst e
          rw [if_pos hBc, hbad _ _ hst]
          rfl
        · split
          · rcases hset a st.1 st.2 (hw a (by simp)) hst with he | ⟨F, f1, f2⟩
            · rw [he]
              rfl
            · rw [f1]
              exact ih _ (fun D hD => hw D (by simp [hD])) e f2
          · exact ih _ (fun D hD => hw D (by simp [hD])) e hst
    rw [hfold _ _ h hB ⟨(Dense.is_ofFn m n f).wf, rfl⟩]
    rfl

/-! ## Concrete cases -/

example : Rel.vmax .release ([] : List Int) = .error .outOfBounds ∧ Rel.vmax .debug ([] : List Int) = .error .assertFail ∧
    Rel.vmax .release [1, 3, (2 : Int)] = .ok 3 ∧ Rel.vabsMin .release [-4, 3, (-2 : Int)] = .ok 2 ∧
    Rel.dsum .release (⟨0, 2, []⟩ : Dense Int) = .ok 0 ∧ Rel.dsum .debug (⟨0, 2, []⟩ : Dense Int) = .error .assertFail ∧
    Rel.dmin .release (⟨0, 2, []⟩ : Dense Int) = .error .outOfBounds := by decide +kernel

example : Rel.getSubVector .release [10, 20, (30 : Int)] [2, 0, 2, 1] [] = .ok [30, 10, 30, 20] ∧
    Rel.getSubVector .release [10, 20, (30 : Int)] [2, 3] [] = .error .outOfBounds ∧
    Rel.getSubVector .debug [10, 20, (30 : Int)] [2, 3] [] = .error .assertFail := by decide +kernel

example : Rel.timerGet .release (⟨[1, 4, (9 : Int)]⟩ : Util.Timer Int) 1 = .ok 5 ∧ Rel.timerGet .release (⟨[1, 4, (9 : Int)]⟩ : Util.Timer Int) 2 = .error .outOfBounds ∧
    Rel.timerGet .release (⟨[1, 4, (9 : Int)]⟩ : Util.Timer Int) (-1) = .error .outOfBounds ∧
    Rel.timerGet .debug (⟨[1, 4, (9 : Int)]⟩ : Util.Timer Int) 2 = .error .assertFail := by decide +kernel

example : Rel.dgetRowIdx .release C144_D [1, 0, 1] = .ok ⟨3, 3, [2, 1, 2, 4, 3, 4, 6, 5, 6]⟩ ∧ Rel.dgetRowIdx .release C144_D [2] = .error .outOfBounds ∧
    Rel.dgetRowIdx .release (⟨2, 0, []⟩ : Dense Int) [7] = .ok ⟨1, 0, []⟩ := by decide +kernel

/-- A second matrix with more rows than the first is cut off; one with fewer is read behind its end; without rows the call works. -/
example : Rel.hstackInto .release [⟨1, 1, [1]⟩, ⟨2, 2, [2, 3, 4, (5 : Int)]⟩] ⟨0, 0, []⟩ = .ok ⟨1, 3, [1, 2, 4]⟩ ∧
    Rel.hstackInto .debug [⟨1, 1, [1]⟩, ⟨2, 2, [2, 3, 4, (5 : Int)]⟩] ⟨0, 0, []⟩ = .error .assertFail ∧
    Rel.hstackInto .release [⟨2, 2, [2, 3, 4, (5 : Int)]⟩, ⟨1, 1, [1]⟩] ⟨0, 0, []⟩ = .error .outOfBounds ∧
    Rel.hstackInto .release [⟨0, 2, []⟩, (⟨0, 1, []⟩ : Dense Int)] ⟨0, 0, []⟩ = .ok ⟨0, 3, []⟩ ∧
    Rel.hstackInto .debug [⟨0, 2, []⟩, (⟨0, 1, []⟩ : Dense Int)] ⟨0, 0, []⟩ = .error .assertFail := by decide +kernel

example : ∃ E, Rel.hstackInto .release [⟨1, 1, [1]⟩, ⟨2, 2, [2, 3, 4, (5 : Int)]⟩] ⟨0, 0, []⟩ = .ok E ∧
    E.Is 1 (totalCols [⟨1, 1, [1]⟩, ⟨2, 2, [2, 3, 4, (5 : Int)]⟩]) (sideBySide [⟨1, 1, [1]⟩, ⟨2, 2, [2, 3, 4, (5 : Int)]⟩]) :=
  (C145_hstack ⟨1, 1, [1]⟩ [⟨2, 2, [2, 3, 4, (5 : Int)]⟩] ⟨0, 0, []⟩ (by decide)).1 (Or.inr (by decide))

example : Rel.hstackInto .release [⟨2, 2, [2, 3, 4, (5 : Int)]⟩, ⟨1, 1, [1]⟩] ⟨0, 0, []⟩ = .error .outOfBounds :=
  (C145_hstack ⟨2, 2, [2, 3, 4, (5 : Int)]⟩ [⟨1, 1, [1]⟩] ⟨0, 0, []⟩ (by decide)).2 (by decide)

example : Rel.dgetRowIdx .release C144_D [2] = .error .outOfBounds := (C145_getRows C144_D C144_D_wf [2]).2 (by decide)

end Linalg
