import Verif.Model.ReleaseLil
import Verif.Props.Lil
import Verif.Props.Release
import Verif.Props.ReleaseSparse

/-! # C141: LilMatrix without assertions -/

namespace Linalg
open Cpp

variable {α β σ R : Type}

/-! ## With assertions -/

theorem Rel.lilAdd_debug (L : Lil α) (i j : Int) (v : α) : Rel.lilAdd .debug L i j v = L.add i j v := by
  unfold Rel.lilAdd Lil.add
  by_cases hi : i ≥ 0
  · have e : (if i < 0 ∨ i ≥ (L.entries.length : Int) then
        if i + 1 < 0 then (.error .threw : Res (List (List (Int × α)))) else .ok (resize L.entries (i + 1).toNat [])
      else .ok L.entries)
      = if i ≥ (L.entries.length : Int) then .ok (resize L.entries (i + 1).toNat []) else .ok L.entries := by
      by_cases h : i ≥ (L.entries.length : Int)
      · rw [if_pos (Or.inr h), if_pos h, if_neg (by omega)]
      · rw [if_neg (by omega), if_neg h]
    rw [e]
    rfl
  · rw [show Build.debug.assert (i ≥ 0) = .error .assertFail from cassert_false hi, cassert_false hi]
    rfl

theorem Rel.lilToSparse_debug [Add α] (sort : List (Int × α) → List (Int × α)) (L : Lil α) : Rel.lilToSparse .debug sort L = L.toSparse sort := by
  unfold Rel.lilToSparse Lil.toSparse Csr.zero
  simp only [Rel.ofArrays_debug, bind_assoc]
  rfl

/-- **C141.**  With assertions the functions are those of `Model/Lil`. -/
theorem C141_debug :
    (∀ (L : Lil α) (i j : Int) (v : α), Rel.lilAdd .debug L i j v = L.add i j v ∧ Rel.lilAddSym .debug L i j v = L.addSym i j v) ∧
    (∀ [Add α] (sort : List (Int × α) → List (Int × α)) (L : Lil α), Rel.lilToSparse .debug sort L = L.toSparse sort) ∧
    ∀ [Zero α] [Add α] [Mul α] (L : Lil α) (x y : List α), Rel.lilMult .debug L x y = L.mult x y ∧ Rel.lilMultAT .debug L x y = L.multAT x y := by
  refine ⟨fun L i j v => ⟨Rel.lilAdd_debug L i j v, ?_⟩, fun sort L => Rel.lilToSparse_debug sort L, fun L x y => ⟨rfl, rfl⟩⟩
  unfold Rel.lilAddSym Lil.addSym
  simp only [Rel.lilAdd_debug]

theorem Refines.ite {p : Prop} [Decidable p] {a a' b b' : Res σ} (h : Refines a b) (h' : Refines a' b') : Refines (if p then a else a') (if p then b else b') := by
  split <;> assumption

theorem Refines.lilAdd (L : Lil α) (i j : Int) (v : α) : Refines (Rel.lilAdd .debug L i j v) (Rel.lilAdd .release L i j v) :=
  (Refines.assert _).bind fun _ => (Refines.assert _).bind fun _ =>
    Refines.bind (Refines.ite ((Refines.assert _).bind fun _ => (Refines.assert _).bind fun _ => Refines.refl _) (Refines.refl _)) fun _ => Refines.refl _

/-- **C141.**  A call that passes the assertions gives the same result when they are compiled away. -/
theorem C141_same :
    (∀ (L : Lil α) (i j : Int) (v : α), Refines (L.add i j v) (Rel.lilAdd .release L i j v) ∧ Refines (L.addSym i j v) (Rel.lilAddSym .release L i j v)) ∧
    (∀ [Add α] (sort : List (Int × α) → List (Int × α)) (L : Lil α), Refines (L.toSparse sort) (Rel.lilToSparse .release sort L)) ∧
    ∀ [Zero α] [Add α] [Mul α] (L : Lil α) (x y : List α), Refines (L.mult x y) (Rel.lilMult .release L x y) ∧
      Refines (L.multAT x y) (Rel.lilMultAT .release L x y) := by
  refine ⟨fun L i j v => ⟨?_, ?_⟩, fun sort L => ?_, fun L x y => ⟨?_, ?_⟩⟩
  · rw [← (C141_debug.1 L i j v).1]
    exact Refines.lilAdd L i j v
  · rw [← (C141_debug.1 L i j v).2]
    exact (Refines.lilAdd L i j v).bind fun L => Refines.ite (Refines.lilAdd L j i v) (Refines.refl _)
  · rw [← C141_debug.2.1 sort L]
    exact Refines.ite ((Refines.assert _).bind fun _ => (Refines.assert _).bind fun _ => Refines.refl _)
      ((Refines.refl _).bind fun _ => (Refines.refl _).bind fun _ => (Refines.refl _).bind fun _ => (Refines.ofArrays _ _ _ _ _).bind fun _ => Refines.refl _)
  · exact (Refines.assert _).bind fun _ => (Refines.assert _).bind fun _ => Refines.forUp fun i _ => (Refines.refl _).bind fun _ => Refines.foldlM fun _ _ =>
      (Refines.vrd _ _).bind fun _ => (Refines.vrd _ _).bind fun _ => Refines.vwr _ _ _
  · exact (Refines.assert _).bind fun _ => (Refines.assert _).bind fun _ => Refines.forUp fun i _ => (Refines.refl _).bind fun _ => Refines.foldlM fun _ _ =>
      (Refines.vrd _ _).bind fun _ => (Refines.vrd _ _).bind fun _ => Refines.vwr _ _ _

/-! ## Lemmas -/

theorem listRows_foldlM (rs : List (List (Int × α))) (s : σ) (g : Int → Int × α → σ → Res σ) :
    forUp 0 (rs.length : Int) s (fun i s => do
      let row ← rd rs i
      row.foldlM (fun s e => g i e s) s) = (triplesL rs).foldlM (fun s t => g t.1 t.2 s) s := by
  rw [triplesL, foldlM_flatten, List.foldlM_map]
  have h2 := foldlM_range_rows rs s (fun i r s => r.foldlM (fun s e => g i e s) s)
  simp only [List.foldlM_map]
  rw [← h2]
  apply forUp_congr
  intro i s h0 h1
  rw [rd_int h0 h1, ok_bind, List.getElem?_eq_getElem (by omega)]

theorem tripleCoef_lil [AddCommMonoid R] (L : Lil R) (i j : Int) : tripleCoef (triplesL L.entries) i j = L.coef i j := by
  have e : tripleCoef (triplesL L.entries) i j = ((triplesL L.entries).map (fun t => if t.1 = i ∧ t.2.1 = j then t.2.2 else 0)).sum := by
    generalize triplesL L.entries = l
    induction l with
    | nil => rfl
    | cons t l ih => rw [tripleCoef_cons, ih]; simp
  rw [e, sum_triplesL L.entries (fun k e => if k = i ∧ e.1 = j then e.2 else 0)]
  by_cases hi : 0 ≤ i ∧ i < (L.entries.length : Int)
  · rw [Finset.sum_eq_single_of_mem i (Finset.mem_Ico.mpr hi)]
    · rw [Lil.coef_eq L hi.1, rowCoef_eq_sum_ite]
      simp
    · intro k _ hk
      simp [hk]
  · rw [Finset.sum_eq_zero]
    · by_cases h0 : 0 ≤ i
      · rw [Lil.coef_big L (by omega)]
      · rw [Lil.coef_neg L (by omega)]
    · intro k hk
      have := Finset.mem_Ico.mp hk
      have hk' : k ≠ i := by rintro rfl; exact hi this
      simp [hk']

theorem mergeIn_cols_iff [Add α] (l acc : List (Int × α)) (P : Int → Prop) :
    (∀ x ∈ l.foldl mergeIn acc, P x.1) ↔ (∀ x ∈ acc, P x.1) ∧ ∀ x ∈ l, P x.1 := by
  induction l generalizing acc with
  | nil => simp
  | cons e l ih =>
    rw [List.foldl_cons, ih]
    have : (∀ x ∈ mergeIn acc e, P x.1) ↔ (∀ x ∈ acc, P x.1) ∧ P e.1 := by
      rcases List.eq_nil_or_concat acc with rfl | ⟨acc, b, rfl⟩
      · simp [mergeIn_nil]
      · obtain ⟨c, w⟩ := b
        obtain ⟨d, v⟩ := e
        rw [List.concat_eq_append]
        by_cases hc : c = d
        · subst hc
          rw [mergeIn_same]
          simp only [List.mem_append, List.mem_singleton]
          constructor
          · intro h
            refine ⟨?_, h _ (Or.inr rfl)⟩
            rintro x (hx | rfl)
            · exact h x (Or.inl hx)
            · exact h (c, w + v) (Or.inr rfl)
          · rintro ⟨h, h'⟩ x (hx | rfl)
            · exact h x (Or.inl hx)
            · exact h'
        · rw [mergeIn_diff _ _ _ hc]
          simp only [List.mem_append, List.mem_singleton]
          constructor
          · intro h
            exact ⟨fun x hx => h x (Or.inl hx), h _ (Or.inr rfl)⟩
          · rintro ⟨h, h'⟩ x (hx | rfl)
            · exact h x hx
            · exact h'
    rw [this]
    simp only [List.mem_cons, forall_eq_or_imp]
    tauto

theorem mergeStep_keep [Add α] (l : List (Int × α)) (cur : Int) (e : List Int × List α) (h : e.1.length = e.2.length) :
    ∃ e', l.foldlM (Lil.mergeStep cur) e = .ok e' ∧ e'.1.length = e'.2.length := by
  refine foldlM_keep (fun (e : List Int × List α) => e.1.length = e.2.length) h ?_
  intro e node _ h
  unfold Lil.mergeStep
  split
  · rename_i hc
    have : e.1 ≠ [] := by
      intro h0
      rw [h0] at hc
      simp at hc
    have hp : 0 < e.2.length := by rw [← h]; exact List.length_pos_iff.mpr this
    rw [rd_int (by omega) (by omega), ok_bind, wr_int (by omega) (by omega), ok_bind]
    exact ⟨_, rfl, by simpa using h⟩
  · exact ⟨_, rfl, by simp [h]⟩

/-! ## Without assertions -/

/-- **C141.**  `Add(i, j, v)`.  The column and the declared size play no role: the entry is stored in front of the row `i` if that row exists (of a matrix that
was given a size) or after making room for it.  Otherwise memory outside the rows is written; a matrix without a size throws for `i < -1`. -/
theorem C141_add (L : Lil α) (i j : Int) (v : α) :
    (0 ≤ i → (L.sizeSet = true → i < L.entries.length) → ∃ L', Rel.lilAdd .release L i j v = .ok L' ∧
      L'.rows = L.rows ∧ L'.cols = L.cols ∧ L'.sizeSet = L.sizeSet ∧ (L'.entries.length : Int) = max (L.entries.length : Int) (i + 1) ∧
      ∀ k : Nat, L'.entries.getD k [] = if (k : Int) = i then (j, v) :: L.entries.getD k [] else L.entries.getD k []) ∧
    (L.sizeSet = true → i < 0 ∨ (L.entries.length : Int) ≤ i → Rel.lilAdd .release L i j v = .error .outOfBounds) ∧
    (L.sizeSet = false → i = -1 → Rel.lilAdd .release L i j v = .error .outOfBounds) ∧
    (L.sizeSet = false → i < -1 → Rel.lilAdd .release L i j v = .error .threw) := by
  refine ⟨fun i0 h => ?_, fun hs h => ?_, fun hs h => ?_, fun hs h => ?_⟩
  · unfold Rel.lilAdd
    rw [show Build.release.assert (i ≥ 0) = .ok () from rfl, ok_bind, show Build.release.assert (j ≥ 0) = .ok () from rfl, ok_bind]
    by_cases hs : L.sizeSet = true
    · have hi := h hs
      rw [if_pos hs, show Build.release.assert (i < L.rows) = .ok () from rfl, ok_bind, show Build.release.assert (j < L.cols) = .ok () from rfl, ok_bind,
        ok_bind, rd_int i0 hi, ok_bind, wr_int i0 hi, ok_bind]
      refine ⟨_, rfl, rfl, rfl, rfl, by simp; omega, fun k => ?_⟩
      simp only [List.getD_eq_getElem?_getD, List.getElem?_set]
      by_cases hk : (k : Int) = i
      · have : i.toNat = k := by omega
        rw [if_pos this, if_pos hk, if_pos (by omega), List.getElem?_eq_getElem (by omega)]
        simp [this]
      · rw [if_neg (by omega), if_neg hk]
    · rw [if_neg hs]
      by_cases hi : i ≥ (L.entries.length : Int)
      · rw [if_pos (Or.inr hi), if_neg (by omega), ok_bind]
        have hl : (resize L.entries (i + 1).toNat []).length = (i + 1).toNat := Dense.length_resize _ _ _
        have hg : ∀ k : Nat, (resize L.entries (i + 1).toNat []).getD k [] = L.entries.getD k [] := by
          intro k
          unfold resize
          simp only [List.getD_eq_getElem?_getD]
          rw [List.take_of_length_le (by omega), List.getElem?_append]
          split
          · rfl
          · rw [List.getElem?_eq_none (l := L.entries) (by omega), List.getElem?_replicate]
            split <;> rfl
        rw [rd_int i0 (by omega), ok_bind, wr_int i0 (by omega), ok_bind]
        refine ⟨_, rfl, rfl, rfl, rfl, by simp [hl]; omega, fun k => ?_⟩
        rw [← hg k]
        simp only [List.getD_eq_getElem?_getD, List.getElem?_set]
        by_cases hk : (k : Int) = i
        · have : i.toNat = k := by omega
          rw [if_pos this, if_pos hk, if_pos (by omega), List.getElem?_eq_getElem (by omega)]
          simp [this]
        · rw [if_neg (by omega), if_neg hk]
      · rw [if_neg (by omega), ok_bind, rd_int i0 (by omega), ok_bind, wr_int i0 (by omega), ok_bind]
        refine ⟨_, rfl, rfl, rfl, rfl, by simp; omega, fun k => ?_⟩
        simp only [List.getD_eq_getElem?_getD, List.getElem?_set]
        by_cases hk : (k : Int) = i
        · have : i.toNat = k := by omega
          rw [if_pos this, if_pos hk, if_pos (by omega), List.getElem?_eq_getElem (by omega)]
          simp [this]
        · rw [if_neg (by omega), if_neg hk]
  · unfold Rel.lilAdd
    rw [if_pos hs]
    show (rd L.entries i >>= fun row => _) = _
    rw [rd_oob h]
    rfl
  · unfold Rel.lilAdd
    rw [if_neg (by simp [hs]), if_pos (Or.inl (by omega)), if_neg (by omega)]
    show (rd _ i >>= fun row => _) = _
    rw [rd_oob (by omega)]
    rfl
  · unfold Rel.lilAdd
    rw [if_neg (by simp [hs]), if_pos (Or.inl (by omega)), if_pos (by omega)]
    rfl

/-- **C141.**  `ToSparse()` of a matrix that was given as many rows as it stores, with any columns: the conversion succeeds with the same coefficients and
sorted rows, and the result is well formed exactly if the columns are inside the matrix.  With more rows stored than declared (after `SetSize`), memory
outside the row pointers is written. -/
theorem C141_toSparse [AddCommMonoid R] (sort : List (Int × R) → List (Int × R)) (hsort : IsRowSort sort) (L : Lil R) (hs : L.sizeSet = true) :
    ((L.entries.length : Int) = L.rows → ∃ A L', Rel.lilToSparse .release sort L = .ok (A, L') ∧ A.rows = L.rows ∧ A.cols = L.cols ∧
      (∀ i, 0 ≤ i → ((A.row i).map Prod.fst).Pairwise (· < ·)) ∧ (∀ i j, 0 ≤ i → A.coef i j = L.coef i j) ∧
      (A.WF ↔ 0 ≤ L.cols ∧ ∀ r ∈ L.entries, ∀ e ∈ r, 0 ≤ e.1 ∧ e.1 < L.cols)) ∧
    (0 ≤ L.rows → L.rows < L.entries.length → Rel.lilToSparse .release sort L = .error .outOfBounds) := by
  have hfs : L.findSize = (L.rows, L.cols) := by unfold Lil.findSize; rw [if_pos hs]
  constructor
  · intro hlen
    have hrun : Rel.lilToSparse .release sort L = .ok (Csr.ofRows L.cols (lilRows sort L.entries),
        if L.entries.length = 0 then L else { L with entries := L.entries.map sort }) := by
      unfold Rel.lilToSparse
      rw [hfs]
      simp only
      obtain ⟨N, hN⟩ : ∃ N : Nat, L.rows = N := ⟨L.entries.length, by omega⟩
      have hNl : L.entries.length = N := by omega
      by_cases h0 : L.entries.length = 0
      · rw [if_pos h0, if_pos h0]
        have he : L.entries = [] := List.length_eq_zero_iff.mp h0
        have hr : L.rows = 0 := by omega
        rw [hr, he]
        rfl
      · rw [if_neg h0, if_neg h0]
        rw [show L.rows + 1 = ((N + 1 : Nat) : Int) by omega, mkVec_nat, ok_bind]
        have hw : wr (List.replicate (N + 1) (0 : Int)) 0 0 = .ok (List.replicate (N + 1) 0) := by
          rw [show (0 : Int) = ((0 : Nat) : Int) from rfl, wr_nat (by simp)]
          simp [List.replicate_succ]
        rw [hw, ok_bind, lil_loop _ (N + 1) (by simp; omega), ok_bind]
        have e1 : ((L.entries.map sort).map (fun r => r.foldl mergeIn [])) = lilRows sort L.entries := by
          simp [lilRows]
        rw [e1, padTo_full (by simp [lilRows, hNl])]
        simp only
        rw [(C137_accepts _ _ _ _ _ (Coo.mk 0 0 true []) 0 0 (0 : R)).1, ok_bind]
        simp [Csr.ofRows, lilRows, hNl, hN]
    have hmem : ∀ (P : Int → Prop), (∀ r ∈ lilRows sort L.entries, ∀ e ∈ r, P e.1) ↔ ∀ r ∈ L.entries, ∀ e ∈ r, P e.1 := by
      intro P
      constructor
      · intro h r hr e he
        have h1 : ∀ x ∈ (sort r).foldl mergeIn [], P x.1 := h _ (List.mem_map.mpr ⟨r, hr, rfl⟩)
        exact mergeIn_cols_iff (sort r) [] P |>.mp h1 |>.2 e ((hsort r).1.mem_iff.mpr he)
      · intro h r hr
        obtain ⟨r0, h0, rfl⟩ := List.mem_map.mp hr
        exact foldl_mergeIn_cols _ _ P (by simp) (fun e he => h r0 h0 e ((hsort r0).1.mem_iff.mp he))
    refine ⟨_, _, hrun, by simp [Csr.ofRows, lilRows, hlen], rfl, ?_, ?_, ?_⟩
    · intro i hi
      rw [row_ofRows_getD _ _ hi]
      by_cases hi' : i.toNat < L.entries.length
      · rw [List.getD_eq_getElem?_getD, List.getElem?_eq_getElem (by simpa [lilRows] using hi')]
        simp only [lilRows, List.getElem_map, Option.getD_some, List.pairwise_map]
        exact foldl_mergeIn_sorted _ _ (by simp) (hsort _).2 (by simp)
      · rw [List.getD_eq_getElem?_getD, List.getElem?_eq_none (by simp [lilRows]; omega)]
        simp
    · intro i j hi
      rw [coef_ofRows_getD _ _ hi, Lil.coef_eq L hi]
      by_cases hi' : i.toNat < L.entries.length
      · rw [List.getD_eq_getElem?_getD, List.getElem?_eq_getElem (by simpa [lilRows] using hi'),
          List.getD_eq_getElem?_getD, List.getElem?_eq_getElem hi']
        simp only [lilRows, List.getElem_map, Option.getD_some]
        rw [rowCoef_foldl_mergeIn, rowCoef_nil, zero_add, rowCoef_perm (hsort _).1]
      · rw [List.getD_eq_getElem?_getD, List.getElem?_eq_none (by simp [lilRows]; omega),
          List.getD_eq_getElem?_getD, List.getElem?_eq_none (by omega)]
    · rw [← hmem (fun c => 0 ≤ c ∧ c < L.cols)]
      constructor
      · intro hw
        exact ⟨hw.cols_nonneg, fun r hr e he => hw.cols_ok _ (mem_indices_ofRows.mpr ⟨r, hr, e, he, rfl⟩)⟩
      · rintro ⟨h0, h1⟩
        exact Csr.wf_ofRows h0 h1
  · intro h0 h1
    unfold Rel.lilToSparse
    rw [hfs]
    simp only
    rw [if_neg (by omega), mkVec_int (by omega), ok_bind, wr_int le_rfl (by simp; omega), ok_bind]
    rw [forUp_fails (fun _ (st : List Int × List Int × List R) => (st.1.length : Int) = L.rows + 1 ∧ st.2.1.length = st.2.2.length)
      (fun i => i < L.rows) .outOfBounds (by simp; omega) ?_ ?_ ⟨L.rows, h0, by simpa using h1, by omega⟩]
    · rfl
    · rintro i st i0 i1 ⟨hl, hl'⟩ hg
      simp only [List.length_map] at i1
      rw [rd_int i0 (by omega), ok_bind, rd_int i0 (by simpa using i1), ok_bind]
      obtain ⟨e, e1, e2⟩ := mergeStep_keep ((L.entries.map sort)[i.toNat]'(by simp; omega)) (st.1[i.toNat]'(by omega)) st.2 hl'
      rw [e1, ok_bind, wr_int (by omega) (by omega), ok_bind]
      exact ⟨_, rfl, by simpa using hl, e2⟩
    · rintro i st i0 i1 ⟨hl, hl'⟩ hg
      simp only [List.length_map] at i1
      by_cases hi : i = L.rows
      · rw [rd_int i0 (by omega), ok_bind, rd_int i0 (by simpa using i1), ok_bind]
        obtain ⟨e, e1, e2⟩ := mergeStep_keep ((L.entries.map sort)[i.toNat]'(by simp; omega)) (st.1[i.toNat]'(by omega)) st.2 hl'
        rw [e1, ok_bind, wr_oob (by omega)]
        rfl
      · rw [rd_oob (by omega)]
        rfl

/-- **C141.**  `Mult(x, y)`: it works exactly if every entry lies inside the vectors, and then computes the product; the sizes of the matrix have no
influence. -/
theorem C141_mult [NonUnitalNonAssocSemiring R] (L : Lil R) (x y : List R) :
    ((∀ (i : Nat) (hi : i < L.entries.length), ∀ e ∈ L.entries[i], (0 ≤ e.1 ∧ e.1 < (x.length : Int)) ∧ i < y.length) →
      ∃ y', Rel.lilMult .release L x y = .ok y' ∧ VecIs y' y.length (fun i => ∑ j ∈ Finset.Ico 0 (x.length : Int), L.coef i j * vecAt x j)) ∧
    (¬ (∀ (i : Nat) (hi : i < L.entries.length), ∀ e ∈ L.entries[i], (0 ≤ e.1 ∧ e.1 < (x.length : Int)) ∧ i < y.length) →
      Rel.lilMult .release L x y = .error .outOfBounds) := by
  have hrun : Rel.lilMult .release L x y = (triplesL L.entries).foldlM (fun (out : List R) t => do
        let a ← Rel.vrd .release x t.2.1
        let old ← Rel.vrd .release out t.1
        Rel.vwr .release out t.1 (old + t.2.2 * a)) (List.replicate y.length 0) :=
    listRows_foldlM L.entries _ (fun i e (out : List R) => do
        let a ← Rel.vrd .release x e.1
        let old ← Rel.vrd .release out i
        Rel.vwr .release out i (old + e.2 * a))
  have hc : (∀ (i : Nat) (hi : i < L.entries.length), ∀ e ∈ L.entries[i], (0 ≤ e.1 ∧ e.1 < (x.length : Int)) ∧ i < y.length) ↔
      ∀ t ∈ triplesL L.entries, (0 ≤ t.2.1 ∧ t.2.1 < (x.length : Int)) ∧ 0 ≤ t.1 ∧ t.1 < (y.length : Int) := by
    constructor
    · intro h t ht
      obtain ⟨k, hk, h1, h2⟩ := mem_triplesL.mp ht
      have := h k hk _ h2
      omega
    · intro h i hi e he
      have := h ((i : Int), e) (mem_triplesL.mpr ⟨i, hi, rfl, he⟩)
      simp only at this
      omega
  rw [hc, hrun]
  have hsr := scatter_release (triplesL L.entries) (fun t => t.2.1) (fun t => t.1) (fun t => t.2.2) x y
  refine ⟨fun h => ⟨_, hsr.1 h, (is_vecFn _ _).congr (fun i _ _ => ?_)⟩, hsr.2⟩
  rw [sum_triples_row (triplesL L.entries) (fun e he => (h e he).1) (vecAt x) i]
  exact Finset.sum_congr rfl fun j _ => by rw [tripleCoef_lil]

/-- **C141.**  `MultAT(x, y)`: as C137 for the coordinate matrix, a release build answers the calls for a rectangular matrix that a debug build rejects. -/
theorem C141_multAT [NonUnitalNonAssocSemiring R] (L : Lil R) (x y : List R) :
    ((∀ (i : Nat) (hi : i < L.entries.length), ∀ e ∈ L.entries[i], (0 ≤ e.1 ∧ e.1 < (y.length : Int)) ∧ i < x.length) →
      ∃ y', Rel.lilMultAT .release L x y = .ok y' ∧ VecIs y' y.length (fun j => ∑ i ∈ Finset.Ico 0 (x.length : Int), L.coef i j * vecAt x i)) ∧
    (¬ (∀ (i : Nat) (hi : i < L.entries.length), ∀ e ∈ L.entries[i], (0 ≤ e.1 ∧ e.1 < (y.length : Int)) ∧ i < x.length) →
      Rel.lilMultAT .release L x y = .error .outOfBounds) := by
  have hrun : Rel.lilMultAT .release L x y = (triplesL L.entries).foldlM (fun (out : List R) t => do
        let a ← Rel.vrd .release x t.1
        let old ← Rel.vrd .release out t.2.1
        Rel.vwr .release out t.2.1 (old + t.2.2 * a)) (List.replicate y.length 0) :=
    listRows_foldlM L.entries _ (fun i e (out : List R) => do
        let a ← Rel.vrd .release x i
        let old ← Rel.vrd .release out e.1
        Rel.vwr .release out e.1 (old + e.2 * a))
  have hc : (∀ (i : Nat) (hi : i < L.entries.length), ∀ e ∈ L.entries[i], (0 ≤ e.1 ∧ e.1 < (y.length : Int)) ∧ i < x.length) ↔
      ∀ t ∈ triplesL L.entries, (0 ≤ t.1 ∧ t.1 < (x.length : Int)) ∧ 0 ≤ t.2.1 ∧ t.2.1 < (y.length : Int) := by
    constructor
    · intro h t ht
      obtain ⟨k, hk, h1, h2⟩ := mem_triplesL.mp ht
      have := h k hk _ h2
      omega
    · intro h i hi e he
      have := h ((i : Int), e) (mem_triplesL.mpr ⟨i, hi, rfl, he⟩)
      simp only at this
      omega
  rw [hc, hrun]
  have hsr := scatter_release (triplesL L.entries) (fun t => t.1) (fun t => t.2.1) (fun t => t.2.2) x y
  refine ⟨fun h => ⟨_, hsr.1 h, (is_vecFn _ _).congr (fun i _ _ => ?_)⟩, hsr.2⟩
  rw [sum_triples_col (triplesL L.entries) (fun e he => (h e he).1) (vecAt x) i]
  exact Finset.sum_congr rfl fun j _ => by rw [tripleCoef_lil]

/-! ## Concrete cases -/

/-- A column outside the matrix is stored and converted; the product reads past the end of the vector. -/
example : ∃ (L L' : Lil Int) (A : Csr Int), L.add 0 5 7 = .error .assertFail ∧ Rel.lilAdd .release L 0 5 7 = .ok L' ∧
    Rel.lilToSparse .release id L' = .ok (A, L') ∧ ¬ A.WF ∧ A.coef 0 5 = 7 ∧ Rel.lilMult .release L' [1, 1] [0, 0] = .error .outOfBounds ∧
    Rel.lilMult .release L' [1, 1, 1, 1, 1, 3] [0, 0] = .ok [21, 0] ∧ Rel.lilAdd .release L 2 0 7 = .error .outOfBounds :=
  ⟨⟨2, 2, true, [[], []]⟩, ⟨2, 2, true, [[(5, 7)], []]⟩, ⟨2, 2, [0, 1, 1], [5], [7]⟩,
    by decide, by decide, by decide, by decide, by decide, by decide, by decide, by decide⟩

/-- A negative row of a matrix without a size. -/
example : Rel.lilAdd .release (Lil.new : Lil Int) (-1) 0 7 = .error .outOfBounds ∧ Rel.lilAdd .release (Lil.new : Lil Int) (-2) 0 7 = .error .threw ∧
    Rel.lilAddSym .release (Lil.new : Lil Int) 1 0 7 = .ok ⟨0, 0, false, [[(1, 7)], [(0, 7)]]⟩ :=
  ⟨by decide, by decide, by decide⟩

/-- The transposed product with a 1 x 2 matrix, and more rows stored than declared. -/
example : ∃ L : Lil Int, L.WF ∧ L.multAT [5] [0, 0] = .error .assertFail ∧ Rel.lilMultAT .release L [5] [0, 0] = .ok [0, 15] ∧
    Rel.lilToSparse .release id (L.setSize 0 2) = .error .outOfBounds :=
  ⟨⟨1, 2, true, [[(1, 3)]]⟩, by decide, by decide, by decide, by decide⟩

end Linalg
