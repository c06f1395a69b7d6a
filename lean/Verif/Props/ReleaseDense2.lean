import Verif.Model.ReleaseDense2
import Verif.Props.ReleaseBlock

/-! # C144: rows, columns and blocks of dense matrices without assertions -/

namespace Linalg
open Cpp

variable {α : Type}

/-- **C144.**  With assertions the functions are those of the other models. -/
theorem C144_debug :
    (∀ (D : Dense α) (k : Int) (v : List α), Rel.dgetCol .debug D k v = D.getColInto k v ∧ Rel.dgetRow .debug D k v = D.getRowInto k v ∧
      Rel.dsetCol .debug D k v = D.setColVec k v ∧ Rel.dsetRow .debug D k v = D.setRowVec k v) ∧
    (∀ [Zero α] (D E : Dense α) (si sj ei ej : Int), Rel.dgetSub .debug D si sj ei ej E = D.getSubMatrixInto si sj ei ej E) ∧
    (∀ (D E : Dense α) (si sj : Int), Rel.dsetSub .debug D si sj E = D.setSubMatrix si sj E) ∧
    ∀ [Zero α] (D : Dense α), Rel.dgetDiag .debug D = D.getDiag := by
  refine ⟨fun D k v => ⟨rfl, rfl, rfl, rfl⟩, fun D E si sj ei ej => rfl, fun D E si sj => rfl, fun D => ?_⟩
  unfold Rel.dgetDiag Dense.getDiag
  by_cases h : D.rows = D.cols
  · rw [show Build.debug.assert (D.rows = D.cols) = cassert (D.rows = D.cols) from rfl, cassert_true h]
    rfl
  · rw [show Build.debug.assert (D.rows = D.cols) = cassert (D.rows = D.cols) from rfl, cassert_false h]
    rfl

theorem Refines.drange (D : Dense α) (si sj ei ej : Int) : Refines (Rel.drange .debug D si sj ei ej) (Rel.drange .release D si sj ei ej) :=
  (Refines.assert _).bind fun _ => (Refines.assert _).bind fun _ => (Refines.assert _).bind fun _ => (Refines.assert _).bind fun _ => Refines.assert _

/-- **C144.**  A call that passes the assertions gives the same result when they are compiled away. -/
theorem C144_same :
    (∀ (D : Dense α) (k : Int) (v : List α), Refines (D.getColInto k v) (Rel.dgetCol .release D k v) ∧
      Refines (D.getRowInto k v) (Rel.dgetRow .release D k v) ∧ Refines (D.setColVec k v) (Rel.dsetCol .release D k v) ∧
      Refines (D.setRowVec k v) (Rel.dsetRow .release D k v)) ∧
    (∀ [Zero α] (D E : Dense α) (si sj ei ej : Int), Refines (D.getSubMatrixInto si sj ei ej E) (Rel.dgetSub .release D si sj ei ej E)) ∧
    (∀ (D E : Dense α) (si sj : Int), Refines (D.setSubMatrix si sj E) (Rel.dsetSub .release D si sj E)) ∧
    ∀ [Zero α] (D : Dense α), Refines D.getDiag (Rel.dgetDiag .release D) := by
  refine ⟨fun D k v => ⟨?_, ?_, ?_, ?_⟩, fun D E si sj ei ej => ?_, fun D E si sj => ?_, fun D => ?_⟩
  · exact (Refines.assert _).bind fun _ => (Refines.assert _).bind fun _ => Refines.forUp fun i _ => (Refines.dget D i k).bind fun _ => Refines.vwr _ _ _
  · exact (Refines.assert _).bind fun _ => (Refines.assert _).bind fun _ => Refines.forUp fun i _ => (Refines.dget D k i).bind fun _ => Refines.vwr _ _ _
  · exact (Refines.assert _).bind fun _ => (Refines.assert _).bind fun _ => Refines.forUp fun i _ => (Refines.vrd v i).bind fun _ => Refines.dput _ _ _ _
  · exact (Refines.assert _).bind fun _ => (Refines.assert _).bind fun _ => Refines.forUp fun i _ => (Refines.vrd v i).bind fun _ => Refines.dput _ _ _ _
  · exact (Refines.drange D si sj ei ej).bind fun _ => (Refines.refl _).bind fun _ => Refines.forUp fun j _ => Refines.forUp fun i _ =>
      (Refines.dget D _ _).bind fun _ => Refines.dput _ _ _ _
  · exact (Refines.drange D si sj _ _).bind fun _ => Refines.forUp fun j _ => Refines.forUp fun i _ =>
      (Refines.dget E _ _).bind fun _ => Refines.dput _ _ _ _
  · rw [← C144_debug.2.2.2]
    exact (Refines.assert _).bind fun _ => (Refines.refl _).bind fun _ => (Refines.assert _).bind fun _ => (Refines.assert _).bind fun _ =>
      Refines.forUp fun i _ => (Refines.dget D i i).bind fun _ => Refines.refl _

/-! ## Lemmas -/

theorem Rel.dget_flat [Zero α] {D : Dense α} (hD : D.WF) {i j : Int} (h0 : 0 ≤ i + j * D.rows) (h1 : i + j * D.rows < D.rows * D.cols) :
    Rel.dget .release D i j = .ok (vecAt D.data (i + j * D.rows)) := by
  show rd D.data (i + j * D.rows) = _
  exact rd_vecAt _ h0 (by rw [hD.size]; exact h1)

theorem Rel.dget_out {D : Dense α} (hD : D.WF) {i j : Int} (h : i + j * D.rows < 0 ∨ D.rows * D.cols ≤ i + j * D.rows) :
    Rel.dget .release D i j = .error .outOfBounds := by
  show rd D.data (i + j * D.rows) = _
  have := hD.size
  exact rd_oob (by omega)

/-- A loop that writes the first elements of a vector. -/
theorem prefixLoop {v : List α} {n : Int} (hn : 0 ≤ n) (h : n ≤ v.length) (g : Int → α) (body : Int → List α → Res (List α))
    (hb : ∀ i s, 0 ≤ i → i < n → s.length = v.length → body i s = wr s i (g i)) :
    ∃ w, forUp 0 n v body = .ok w ∧ w.length = v.length ∧ (∀ i, 0 ≤ i → i < n → rd w i = .ok (g i)) ∧ ∀ i, n ≤ i → rd w i = rd v i := by
  obtain ⟨w, h1, h2, h3, h4⟩ := forUp_inv hn (f := body) (s := v)
    (fun k w => w.length = v.length ∧ (∀ i, 0 ≤ i → i < k → rd w i = .ok (g i)) ∧ ∀ i, k ≤ i → rd w i = rd v i)
    ⟨rfl, fun i a b => absurd a (by omega), fun _ _ => rfl⟩ (by
      rintro i w i0 i1 ⟨l, a, b⟩
      rw [hb i w i0 i1 l, wr_int i0 (by omega)]
      obtain ⟨q, rfl⟩ : ∃ q : Nat, i = q := ⟨i.toNat, by omega⟩
      refine ⟨_, rfl, by simpa using l, ?_, ?_⟩
      · intro k k0 k1
        obtain ⟨p, rfl⟩ : ∃ p : Nat, k = p := ⟨k.toNat, by omega⟩
        by_cases e : p = q
        · subst e
          rw [rd_eq_ok]
          refine ⟨by omega, ?_⟩
          simp only [Int.toNat_natCast]
          rw [List.getElem?_set_self (by omega)]
        · have := a p (by omega) (by omega)
          rw [rd_eq_ok] at this ⊢
          refine ⟨by omega, ?_⟩
          simp only [Int.toNat_natCast] at this ⊢
          rw [List.getElem?_set_ne (by omega)]
          exact this.2
      · intro k k1
        rw [← b k (by omega)]
        obtain ⟨p, rfl⟩ : ∃ p : Nat, k = p := ⟨k.toNat, by omega⟩
        unfold rd
        simp only [Int.toNat_natCast]
        rw [List.getElem?_set_ne (by omega)])
  exact ⟨w, h1, h2, h3, h4⟩

theorem flat_last (m n : Int) (k : Int) : k + (n - 1) * m = k - m + m * n := by ring

/-! ## Rows and columns -/

/-- **C144.**  `GetCol(col, vect)`: it works exactly if there are no rows, or the column is in range and the vector has room for it; further elements of the
vector keep their values. -/
theorem C144_getCol [Zero α] (D : Dense α) (hD : D.WF) (k : Int) (v : List α) :
    (D.rows = 0 ∨ (0 ≤ k ∧ k < D.cols ∧ D.rows ≤ v.length) →
      ∃ w, Rel.dgetCol .release D k v = .ok w ∧ w.length = v.length ∧ (∀ i, 0 ≤ i → i < D.rows → rd w i = .ok (D.entry i k)) ∧
        ∀ i, D.rows ≤ i → rd w i = rd v i) ∧
    (¬ (D.rows = 0 ∨ (0 ≤ k ∧ k < D.cols ∧ D.rows ≤ v.length)) → Rel.dgetCol .release D k v = .error .outOfBounds) := by
  have r0 := hD.rows_nonneg
  constructor
  · intro h
    refine prefixLoop r0 (by rcases h with h | h <;> omega) (fun i => D.entry i k) _ ?_
    intro i s i0 i1 hs
    rw [Rel.dget_ok hD _ i0 i1 (by omega) (by omega), ok_bind]
    rfl
  · intro h
    push Not at h
    obtain ⟨h1, h2⟩ := h
    show forUp 0 D.rows v (fun i vect => do
      let x ← Rel.dget .release D i k
      Rel.vwr .release vect i x) = _
    refine forUp_fails (fun _ (s : List α) => s.length = v.length) (fun i => 0 ≤ k ∧ k < D.cols ∧ i < (v.length : Int)) .outOfBounds rfl ?_ ?_ ?_
    · intro i s i0 i1 hs hg
      rw [Rel.dget_ok hD _ i0 i1 hg.1 hg.2.1, ok_bind]
      show ∃ s', wr s i _ = .ok s' ∧ _
      rw [wr_int i0 (by omega)]
      exact ⟨_, rfl, by simpa using hs⟩
    · intro i s i0 i1 hs hg
      by_cases hk : 0 ≤ k ∧ k < D.cols
      · rw [Rel.dget_ok hD _ i0 i1 hk.1 hk.2, ok_bind]
        show wr s i _ = _
        have : ¬ i < (v.length : Int) := fun hh => hg ⟨hk.1, hk.2, hh⟩
        exact wr_oob (by omega)
      · rw [Rel.dget_out hD]
        · rfl
        · by_cases hk0 : 0 ≤ k
          · right
            have : D.cols ≤ k := by omega
            nlinarith
          · left
            have : k ≤ -1 := by omega
            nlinarith
    · by_cases hk : 0 ≤ k ∧ k < D.cols
      · have := h2 hk.1 hk.2
        exact ⟨v.length, by omega, by omega, fun hg => absurd hg.2.2 (by omega)⟩
      · exact ⟨0, le_rfl, by omega, fun hg => hk ⟨hg.1, hg.2.1⟩⟩

/-- **C144.**  `GetRow(row, vect)`, in the same way. -/
theorem C144_getRow [Zero α] (D : Dense α) (hD : D.WF) (k : Int) (v : List α) :
    (D.cols = 0 ∨ (0 ≤ k ∧ k < D.rows ∧ D.cols ≤ v.length) →
      ∃ w, Rel.dgetRow .release D k v = .ok w ∧ w.length = v.length ∧ (∀ j, 0 ≤ j → j < D.cols → rd w j = .ok (D.entry k j)) ∧
        ∀ j, D.cols ≤ j → rd w j = rd v j) ∧
    (¬ (D.cols = 0 ∨ (0 ≤ k ∧ k < D.rows ∧ D.cols ≤ v.length)) → Rel.dgetRow .release D k v = .error .outOfBounds) := by
  have r0 := hD.rows_nonneg
  have c0 := hD.cols_nonneg
  constructor
  · intro h
    refine prefixLoop c0 (by rcases h with h | h <;> omega) (fun j => D.entry k j) _ ?_
    intro i s i0 i1 hs
    rw [Rel.dget_ok hD _ (by omega) (by omega) i0 i1, ok_bind]
    rfl
  · intro h
    push Not at h
    obtain ⟨h1, h2⟩ := h
    show forUp 0 D.cols v (fun i vect => do
      let x ← Rel.dget .release D k i
      Rel.vwr .release vect i x) = _
    refine forUp_fails (fun _ (s : List α) => s.length = v.length)
      (fun i => (0 ≤ k + i * D.rows ∧ k + i * D.rows < D.rows * D.cols) ∧ i < (v.length : Int)) .outOfBounds rfl ?_ ?_ ?_
    · intro i s i0 i1 hs hg
      rw [Rel.dget_flat hD hg.1.1 hg.1.2, ok_bind]
      show ∃ s', wr s i _ = .ok s' ∧ _
      rw [wr_int i0 (by omega)]
      exact ⟨_, rfl, by simpa using hs⟩
    · intro i s i0 i1 hs hg
      by_cases hk : 0 ≤ k + i * D.rows ∧ k + i * D.rows < D.rows * D.cols
      · rw [Rel.dget_flat hD hk.1 hk.2, ok_bind]
        show wr s i _ = _
        have : ¬ i < (v.length : Int) := fun hh => hg ⟨hk, hh⟩
        exact wr_oob (by omega)
      · rw [Rel.dget_out hD (by omega)]
        rfl
    · by_cases hk0 : 0 ≤ k
      · by_cases hk1 : k < D.rows
        · have := h2 hk0 hk1
          exact ⟨v.length, by omega, by omega, fun hg => absurd hg.2 (by omega)⟩
        · refine ⟨D.cols - 1, by omega, by omega, fun hg => ?_⟩
          have := hg.1.2
          rw [flat_last] at this
          omega
      · exact ⟨0, le_rfl, by omega, fun hg => absurd hg.1.1 (by rw [zero_mul]; omega)⟩

theorem Rel.dput_ofFn {m n : Nat} {f : Int → Int → α} {i j : Int} (x : α) (hi : 0 ≤ i) (hi' : i < m) (hj : 0 ≤ j) (hj' : j < n) :
    Rel.dput .release (Dense.ofFn m n f) i j x = .ok (Dense.ofFn m n (fun a b => if a = i ∧ b = j then x else f a b)) :=
  C139_same.2.1 _ i j x _ (Dense.put_ofFn x hi hi' hj hj')

/-- The writes of `SetCol` and `SetRow` keep the sizes. -/
theorem Rel.dput_size {D : Dense α} (hD : D.WF) {i j : Int} (x : α) (h : 0 ≤ i + j * D.rows ∧ i + j * D.rows < D.rows * D.cols) :
    ∃ E, Rel.dput .release D i j x = .ok E ∧ E.WF ∧ E.rows = D.rows ∧ E.cols = D.cols ∧ E.data = D.data.set (i + j * D.rows).toNat x := by
  have := hD.size
  refine ⟨{ D with data := D.data.set (i + j * D.rows).toNat x }, ?_, ⟨hD.rows_nonneg, hD.cols_nonneg, by simpa using this⟩, rfl, rfl, rfl⟩
  show (wr D.data (i + j * D.rows) x >>= fun d => _) = _
  rw [wr_int h.1 (by omega)]
  rfl

theorem Rel.dput_out {D : Dense α} (hD : D.WF) {i j : Int} (x : α) (h : i + j * D.rows < 0 ∨ D.rows * D.cols ≤ i + j * D.rows) :
    Rel.dput .release D i j x = .error .outOfBounds := by
  show (wr D.data (i + j * D.rows) x >>= fun d => _) = _
  have := hD.size
  rw [wr_oob (by omega)]
  rfl

/-- **C144.**  `SetCol(col, vect)`: it works exactly if there are no rows, or the column is in range and the vector is long enough. -/
theorem C144_setCol [Zero α] (D : Dense α) (hD : D.WF) (k : Int) (v : List α) :
    (D.rows = 0 ∨ (0 ≤ k ∧ k < D.cols ∧ D.rows ≤ v.length) →
      ∃ E, Rel.dsetCol .release D k v = .ok E ∧ E.Is D.rows D.cols (fun i j => if j = k then vecAt v i else D.entry i j)) ∧
    (¬ (D.rows = 0 ∨ (0 ≤ k ∧ k < D.cols ∧ D.rows ≤ v.length)) → Rel.dsetCol .release D k v = .error .outOfBounds) := by
  have r0 := hD.rows_nonneg
  constructor
  · intro h
    obtain ⟨M, N, f, rfl⟩ := hD.exists_fn
    simp only [Dense.ofFn_rows, Dense.ofFn_cols] at h ⊢
    refine ⟨Dense.ofFn M N (fun a b => if b = k ∧ a < (M : Int) then vecAt v a else f a b), ?_, ?_⟩
    · show forUp 0 (M : Int) (Dense.ofFn M N f) (fun i D => do
        let x ← Rel.vrd .release v i
        Rel.dput .release D i k x) = _
      have e0 : Dense.ofFn M N f = Dense.ofFn M N (fun a b => if b = k ∧ a < (0 : Int) then vecAt v a else f a b) := by
        apply Dense.ofFn_congr; intros; rw [if_neg (by omega)]
      rw (occs := .pos [1]) [e0]
      refine forUp_seq (by omega) (fun i => Dense.ofFn M N (fun a b => if b = k ∧ a < i then vecAt v a else f a b)) ?_
      intro i i0 i1
      rw [show Rel.vrd .release v i = .ok (vecAt v i) from rd_vecAt v i0 (by omega), ok_bind, Rel.dput_ofFn _ i0 i1 (by omega) (by omega)]
      congr 1
      apply Dense.ofFn_congr
      intro a b _ _ _ _
      by_cases h : a = i ∧ b = k
      · rw [if_pos h, if_pos (by omega), h.1]
      · rw [if_neg h]; congr 1; apply propext; omega
    · refine (Dense.is_ofFn M N _).congr ?_
      intro i j a b c d
      rw [Dense.entry_ofFn a b c d]
      congr 1; apply propext; constructor <;> intro h <;> omega
  · intro h
    push Not at h
    obtain ⟨h1, h2⟩ := h
    show forUp 0 D.rows D (fun i D => do
      let x ← Rel.vrd .release v i
      Rel.dput .release D i k x) = _
    refine forUp_fails (fun _ (E : Dense α) => E.WF ∧ E.rows = D.rows ∧ E.cols = D.cols) (fun i => 0 ≤ k ∧ k < D.cols ∧ i < (v.length : Int))
      .outOfBounds ⟨hD, rfl, rfl⟩ ?_ ?_ ?_
    · rintro i E i0 i1 ⟨hE, e1, e2⟩ hg
      rw [show Rel.vrd .release v i = .ok (vecAt v i) from rd_vecAt v i0 hg.2.2, ok_bind]
      obtain ⟨F, f1, f2, f3, f4⟩ := Rel.dput_keep hE i0 (by omega) hg.1 (by omega) (vecAt v i)
      exact ⟨F, f1, f2, by omega, by omega⟩
    · rintro i E i0 i1 ⟨hE, e1, e2⟩ hg
      by_cases hv : i < (v.length : Int)
      · rw [show Rel.vrd .release v i = .ok (vecAt v i) from rd_vecAt v i0 hv, ok_bind, Rel.dput_out hE]
        rw [e1, e2]
        by_cases hk0 : 0 ≤ k
        · right
          have : D.cols ≤ k := by by_contra hh; exact hg ⟨hk0, by omega, hv⟩
          nlinarith
        · left
          have : k ≤ -1 := by omega
          nlinarith
      · rw [show Rel.vrd .release v i = .error .outOfBounds from rd_oob (by omega)]
        rfl
    · by_cases hk : 0 ≤ k ∧ k < D.cols
      · have := h2 hk.1 hk.2
        exact ⟨v.length, by omega, by omega, fun hg => absurd hg.2.2 (by omega)⟩
      · exact ⟨0, le_rfl, by omega, fun hg => hk ⟨hg.1, hg.2.1⟩⟩

/-- **C144.**  `SetRow(row, vect)`, in the same way. -/
theorem C144_setRow [Zero α] (D : Dense α) (hD : D.WF) (k : Int) (v : List α) :
    (D.cols = 0 ∨ (0 ≤ k ∧ k < D.rows ∧ D.cols ≤ v.length) →
      ∃ E, Rel.dsetRow .release D k v = .ok E ∧ E.Is D.rows D.cols (fun i j => if i = k then vecAt v j else D.entry i j)) ∧
    (¬ (D.cols = 0 ∨ (0 ≤ k ∧ k < D.rows ∧ D.cols ≤ v.length)) → Rel.dsetRow .release D k v = .error .outOfBounds) := by
  have r0 := hD.rows_nonneg
  have c0 := hD.cols_nonneg
  constructor
  · intro h
    obtain ⟨M, N, f, rfl⟩ := hD.exists_fn
    simp only [Dense.ofFn_rows, Dense.ofFn_cols] at h ⊢
    refine ⟨Dense.ofFn M N (fun a b => if a = k ∧ b < (N : Int) then vecAt v b else f a b), ?_, ?_⟩
    · show forUp 0 (N : Int) (Dense.ofFn M N f) (fun i D => do
        let x ← Rel.vrd .release v i
        Rel.dput .release D k i x) = _
      have e0 : Dense.ofFn M N f = Dense.ofFn M N (fun a b => if a = k ∧ b < (0 : Int) then vecAt v b else f a b) := by
        apply Dense.ofFn_congr; intros; rw [if_neg (by omega)]
      rw (occs := .pos [1]) [e0]
      refine forUp_seq (by omega) (fun i => Dense.ofFn M N (fun a b => if a = k ∧ b < i then vecAt v b else f a b)) ?_
      intro i i0 i1
      rw [show Rel.vrd .release v i = .ok (vecAt v i) from rd_vecAt v i0 (by omega), ok_bind, Rel.dput_ofFn _ (by omega) (by omega) i0 i1]
      congr 1
      apply Dense.ofFn_congr
      intro a b _ _ _ _
      by_cases h : a = k ∧ b = i
      · rw [if_pos h, if_pos (by omega), h.2]
      · rw [if_neg h]; congr 1; apply propext; omega
    · refine (Dense.is_ofFn M N _).congr ?_
      intro i j a b c d
      rw [Dense.entry_ofFn a b c d]
      congr 1; apply propext; constructor <;> intro h <;> omega
  · intro h
    push Not at h
    obtain ⟨h1, h2⟩ := h
    show forUp 0 D.cols D (fun i D => do
      let x ← Rel.vrd .release v i
      Rel.dput .release D k i x) = _
    refine forUp_fails (fun _ (E : Dense α) => E.WF ∧ E.rows = D.rows ∧ E.cols = D.cols)
      (fun i => (0 ≤ k + i * D.rows ∧ k + i * D.rows < D.rows * D.cols) ∧ i < (v.length : Int)) .outOfBounds ⟨hD, rfl, rfl⟩ ?_ ?_ ?_
    · rintro i E i0 i1 ⟨hE, e1, e2⟩ hg
      rw [show Rel.vrd .release v i = .ok (vecAt v i) from rd_vecAt v i0 hg.2, ok_bind]
      obtain ⟨F, f1, f2, f3, f4, -⟩ := Rel.dput_size hE (vecAt v i) (by rw [e1, e2]; exact hg.1)
      exact ⟨F, f1, f2, by omega, by omega⟩
    · rintro i E i0 i1 ⟨hE, e1, e2⟩ hg
      by_cases hv : i < (v.length : Int)
      · rw [show Rel.vrd .release v i = .ok (vecAt v i) from rd_vecAt v i0 hv, ok_bind, Rel.dput_out hE]
        rw [e1, e2]
        by_contra hh
        exact hg ⟨by omega, hv⟩
      · rw [show Rel.vrd .release v i = .error .outOfBounds from rd_oob (by omega)]
        rfl
    · by_cases hk0 : 0 ≤ k
      · by_cases hk1 : k < D.rows
        · have := h2 hk0 hk1
          exact ⟨v.length, by omega, by omega, fun hg => absurd hg.2 (by omega)⟩
        · refine ⟨D.cols - 1, by omega, by omega, fun hg => ?_⟩
          have := hg.1.2
          rw [flat_last] at this
          omega
      · exact ⟨0, le_rfl, by omega, fun hg => absurd hg.1.1 (by rw [zero_mul]; omega)⟩

/-- **C144.**  `GetDiag()`: it works exactly if the matrix has no rows or at least as many columns as rows, and then gives one element for every row. -/
theorem C144_getDiag [Zero α] (D : Dense α) (hD : D.WF) :
    (D.rows = 0 ∨ D.rows ≤ D.cols → ∃ w, Rel.dgetDiag .release D = .ok w ∧ (w.length : Int) = D.rows ∧
      ∀ i, 0 ≤ i → i < D.rows → rd w i = .ok (D.entry i i)) ∧
    (¬ (D.rows = 0 ∨ D.rows ≤ D.cols) → Rel.dgetDiag .release D = .error .outOfBounds) := by
  have r0 := hD.rows_nonneg
  have c0 := hD.cols_nonneg
  obtain ⟨R, hR⟩ : ∃ R : Nat, D.rows = R := ⟨D.rows.toNat, by omega⟩
  have hl : Rel.dgetDiag .release D = forUp 0 D.rows (List.replicate R (0 : α)) (fun i diag => do
      let x ← Rel.dget .release D i i
      wr diag i x) := by
    unfold Rel.dgetDiag
    rw [show Build.release.assert (D.rows = D.cols) = .ok () from rfl, ok_bind, hR, mkVec_nat, ok_bind]
    rfl
  rw [hl]
  constructor
  · intro h
    obtain ⟨w, h1, h2, h3, -⟩ := prefixLoop (v := List.replicate R (0 : α)) r0 (by simp [hR]) (fun i => D.entry i i) (fun i diag => do
      let x ← Rel.dget .release D i i
      wr diag i x) (by
        intro i s i0 i1 hs
        rw [Rel.dget_ok hD _ i0 i1 i0 (by omega), ok_bind])
    exact ⟨w, h1, by rw [h2, List.length_replicate, hR], h3⟩
  · intro h
    have hadd : ∀ i : Int, i + i * D.rows = i * (D.rows + 1) := fun i => by ring
    refine forUp_fails (fun _ (s : List α) => s.length = R) (fun i => i + i * D.rows < D.rows * D.cols) .outOfBounds (by simp) ?_ ?_ ?_
    · intro i s i0 i1 hs hg
      rw [Rel.dget_flat hD (by positivity) hg, ok_bind, wr_int i0 (by omega)]
      exact ⟨_, rfl, by simpa using hs⟩
    · intro i s i0 i1 hs hg
      rw [Rel.dget_out hD (by omega)]
      rfl
    · refine ⟨D.rows - 1, by omega, by omega, fun hg => ?_⟩
      have h1 : D.cols ≤ D.rows - 1 := by omega
      have h2 : D.rows * D.cols ≤ D.rows * (D.rows - 1) := mul_le_mul_of_nonneg_left h1 r0
      have h3 : (D.rows - 1) + (D.rows - 1) * D.rows = D.rows * (D.rows - 1) + (D.rows - 1) := by ring
      omega

/-! ## Blocks -/

/-- The addresses of a block lie between those of its first and its last element. -/
theorem block_address {m n R a i j : Int} (hR : 0 ≤ R) (i0 : 0 ≤ i) (i1 : i < m) (j0 : 0 ≤ j) (j1 : j < n) :
    a ≤ i + j * R + a ∧ i + j * R + a ≤ (m - 1) + (n - 1) * R + a := by
  have h1 : 0 ≤ j * R := mul_nonneg j0 hR
  have h2 : j * R ≤ (n - 1) * R := mul_le_mul_of_nonneg_right (by omega) hR
  omega

/-- **C144.**  `GetSubMatrix(si, sj, ei, ej, dense)` with any range that is not negative: it works exactly if the range is empty or its first and last elements have
addresses in the buffer.  Element `(i, j)` of the result is what lies at the address of `(i + si, j + sj)`: a range that passes the last row goes on in the next
column. -/
theorem C144_getSub [Zero α] (D out : Dense α) (hD : D.WF) (si sj ei ej : Int) (hi : si ≤ ei) (hj : sj ≤ ej) :
    (si = ei ∨ sj = ej ∨ (0 ≤ si + sj * D.rows ∧ (ei - 1) + (ej - 1) * D.rows < D.rows * D.cols) →
      ∃ E, Rel.dgetSub .release D si sj ei ej out = .ok E ∧ E.Is (ei - si) (ej - sj) (fun i j => vecAt D.data ((i + si) + (j + sj) * D.rows))) ∧
    (¬ (si = ei ∨ sj = ej ∨ (0 ≤ si + sj * D.rows ∧ (ei - 1) + (ej - 1) * D.rows < D.rows * D.cols)) →
      Rel.dgetSub .release D si sj ei ej out = .error .outOfBounds) := by
  have r0 := hD.rows_nonneg
  obtain ⟨m, hm⟩ : ∃ m : Nat, ei - si = m := ⟨(ei - si).toNat, by omega⟩
  obtain ⟨n, hn⟩ : ∃ n : Nat, ej - sj = n := ⟨(ej - sj).toNat, by omega⟩
  obtain ⟨f, hf⟩ := Dense.setSize_ofFn out m n
  have ha : ∀ i j : Int, (i + si) + (j + sj) * D.rows = i + j * D.rows + (si + sj * D.rows) := fun i j => by ring
  have hlast : (ei - 1) + (ej - 1) * D.rows = ((m : Int) - 1) + ((n : Int) - 1) * D.rows + (si + sj * D.rows) := by rw [← hm, ← hn]; ring
  have hl : Rel.dgetSub .release D si sj ei ej out = forUp 0 (n : Int) (Dense.ofFn m n f) (fun j dense =>
      forUp 0 (m : Int) dense (fun i dense => do
        let x ← Rel.dget .release D (i + si) (j + sj)
        Rel.dput .release dense i j x)) := by
    show (out.setSize (ei - si) (ej - sj) >>= fun dense => _) = _
    rw [hm, hn, hf, ok_bind]
  rw [hl]
  constructor
  · intro h
    refine ⟨Dense.ofFn m n (fun i j => vecAt D.data ((i + si) + (j + sj) * D.rows)), ?_, by rw [hm, hn]; exact Dense.is_ofFn m n _⟩
    refine Dense.fullLoop f _ (fun i j dense => _) ?_
    intro i j g i0 i1 j0 j1 _
    have := block_address (a := si + sj * D.rows) r0 i0 i1 j0 j1
    have hc : 0 ≤ si + sj * D.rows ∧ (ei - 1) + (ej - 1) * D.rows < D.rows * D.cols := by
      rcases h with h | h | h
      · omega
      · omega
      · exact h
    rw [Rel.dget_flat hD (by rw [ha]; omega) (by rw [ha]; omega), ok_bind, Rel.dput_ofFn _ i0 i1 j0 j1, Dense.put_ofFn _ i0 i1 j0 j1]
  · intro h
    have hstep : ∀ (i j : Int) (E : Dense α), 0 ≤ i → i < (m : Int) → 0 ≤ j → j < (n : Int) → E.WF ∧ E.rows = m ∧ E.cols = n →
        (do
          let x ← Rel.dget .release D (i + si) (j + sj)
          Rel.dput .release E i j x : Res (Dense α)) = .error .outOfBounds ∨ ∃ F, (do
          let x ← Rel.dget .release D (i + si) (j + sj)
          Rel.dput .release E i j x : Res (Dense α)) = .ok F ∧ F.WF ∧ F.rows = m ∧ F.cols = n := by
      rintro i j E i0 i1 j0 j1 ⟨hE, e1, e2⟩
      by_cases hc : 0 ≤ (i + si) + (j + sj) * D.rows ∧ (i + si) + (j + sj) * D.rows < D.rows * D.cols
      · right
        rw [Rel.dget_flat hD hc.1 hc.2, ok_bind]
        obtain ⟨F, f1, f2, f3, f4⟩ := Rel.dput_keep hE i0 (by omega) j0 (by omega) (vecAt D.data ((i + si) + (j + sj) * D.rows))
        exact ⟨F, f1, f2, by omega, by omega⟩
      · left
        rw [Rel.dget_out hD (by omega)]
        rfl
    have hofn : (Dense.ofFn m n f).WF ∧ (Dense.ofFn m n f).rows = m ∧ (Dense.ofFn m n f).cols = n :=
      ⟨(Dense.is_ofFn m n f).wf, rfl, rfl⟩
    have hbad : ∃ i j : Int, 0 ≤ i ∧ i < (m : Int) ∧ 0 ≤ j ∧ j < (n : Int) ∧
        ((i + si) + (j + sj) * D.rows < 0 ∨ D.rows * D.cols ≤ (i + si) + (j + sj) * D.rows) := by
      by_cases hc : 0 ≤ si + sj * D.rows
      · exact ⟨m - 1, n - 1, by omega, by omega, by omega, by omega, Or.inr (by rw [ha, ← hlast]; by_contra hh; exact h (Or.inr (Or.inr ⟨hc, by omega⟩)))⟩
      · exact ⟨0, 0, le_rfl, by omega, le_rfl, by omega, Or.inl (by rw [zero_add, zero_add]; omega)⟩
    obtain ⟨i, j, i0, i1, j0, j1, hb⟩ := hbad
    refine forUp_stops (fun (E : Dense α) => E.WF ∧ E.rows = m ∧ E.cols = n) .outOfBounds hofn ?_ ⟨j, j0, j1, ?_⟩
    · intro b E b0 b1 hE
      exact forUp_either (fun (E : Dense α) => E.WF ∧ E.rows = m ∧ E.cols = n) .outOfBounds hE fun a E a0 a1 hE => hstep a b E a0 a1 b0 b1 hE
    · intro E hE
      refine forUp_stops (fun (E : Dense α) => E.WF ∧ E.rows = m ∧ E.cols = n) .outOfBounds hE (fun a E a0 a1 hE => hstep a j E a0 a1 j0 j1 hE) ⟨i, i0, i1, ?_⟩
      intro E hE
      rw [Rel.dget_out hD hb]
      rfl

/-- **C144.**  `SetSubMatrix(si, sj, dense)` at any place: it works exactly if the block is empty or its first and last elements have addresses in the buffer.
Exactly the addresses of the elements of the block are written.  Each holds its element of the block, unless a later column of the block has the same address,
which needs a block with more rows than the matrix. -/
theorem C144_setSub [Zero α] (D B : Dense α) (hD : D.WF) (hB : B.WF) (si sj : Int) :
    (B.rows = 0 ∨ B.cols = 0 ∨ (0 ≤ si + sj * D.rows ∧ (si + B.rows - 1) + (sj + B.cols - 1) * D.rows < D.rows * D.cols) →
      ∃ E, Rel.dsetSub .release D si sj B = .ok E ∧ E.WF ∧ E.rows = D.rows ∧ E.cols = D.cols ∧
        (∀ p, (∀ i j, 0 ≤ i → i < B.rows → 0 ≤ j → j < B.cols → (i + si) + (j + sj) * D.rows ≠ p) → rd E.data p = rd D.data p) ∧
        (∀ i j, 0 ≤ i → i < B.rows → 0 ≤ j → j < B.cols →
          (∀ i' j', 0 ≤ i' → i' < B.rows → j < j' → j' < B.cols → (i' + si) + (j' + sj) * D.rows ≠ (i + si) + (j + sj) * D.rows) →
          rd E.data ((i + si) + (j + sj) * D.rows) = .ok (B.entry i j))) ∧
    (¬ (B.rows = 0 ∨ B.cols = 0 ∨ (0 ≤ si + sj * D.rows ∧ (si + B.rows - 1) + (sj + B.cols - 1) * D.rows < D.rows * D.cols)) →
      Rel.dsetSub .release D si sj B = .error .outOfBounds) := by
  have r0 := hD.rows_nonneg
  have m0 := hB.rows_nonneg
  have n0 := hB.cols_nonneg
  have ha : ∀ i j : Int, (i + si) + (j + sj) * D.rows = i + j * D.rows + (si + sj * D.rows) := fun i j => by ring
  have hlast : (si + B.rows - 1) + (sj + B.cols - 1) * D.rows = (B.rows - 1) + (B.cols - 1) * D.rows + (si + sj * D.rows) := by ring
  have hl : Rel.dsetSub .release D si sj B = forUp 0 B.cols D (fun j D => forUp 0 B.rows D (fun i D => do
      let x ← Rel.dget .release B i j
      Rel.dput .release D (i + si) (j + sj) x)) := by
    show forUp 0 (sj + B.cols - sj) D (fun j D => forUp 0 (si + B.rows - si) D _) = _
    rw [show sj + B.cols - sj = B.cols by omega, show si + B.rows - si = B.rows by omega]
  rw [hl]
  constructor
  · intro h
    have hin : ∀ i j : Int, 0 ≤ i → i < B.rows → 0 ≤ j → j < B.cols → 0 ≤ (i + si) + (j + sj) * D.rows ∧ (i + si) + (j + sj) * D.rows < D.rows * D.cols := by
      intro i j i0 i1 j0 j1
      have := block_address (a := si + sj * D.rows) r0 i0 i1 j0 j1
      rw [ha]
      rcases h with h | h | h <;> omega
    -- written up to row `q` of column `k`
    let I : Int → Int → Dense α → Prop := fun k q E => E.WF ∧ E.rows = D.rows ∧ E.cols = D.cols ∧
      (∀ p, (∀ i j, 0 ≤ i → i < B.rows → 0 ≤ j → (j < k ∨ (j = k ∧ i < q)) → (i + si) + (j + sj) * D.rows ≠ p) → rd E.data p = rd D.data p) ∧
      (∀ i j, 0 ≤ i → i < B.rows → 0 ≤ j → (j < k ∨ (j = k ∧ i < q)) →
          (∀ i' j', 0 ≤ i' → i' < B.rows → j < j' → (j' < k ∨ (j' = k ∧ i' < q)) → (i' + si) + (j' + sj) * D.rows ≠ (i + si) + (j + sj) * D.rows) →
          rd E.data ((i + si) + (j + sj) * D.rows) = .ok (B.entry i j))
    obtain ⟨E, h1, h2, h3, h4, h5, h6⟩ := forUp_inv n0 (s := D) (f := fun j D => forUp 0 B.rows D (fun i D => do
      let x ← Rel.dget .release B i j
      Rel.dput .release D (i + si) (j + sj) x)) (fun k E => I k 0 E)
      ⟨hD, rfl, rfl, fun _ _ => rfl, fun i j a b c d => absurd d (by omega)⟩ (by
        intro k E k0 k1 hE
        obtain ⟨F, f1, f2, f3, f4, f5, f6⟩ := forUp_inv m0 (s := E) (f := fun i D => do
          let x ← Rel.dget .release B i k
          Rel.dput .release D (i + si) (k + sj) x) (fun q F => I k q F) hE (by
            rintro q F q0 q1 ⟨w, e1, e2, a, b⟩
            rw [Rel.dget_ok hB _ q0 q1 k0 k1, ok_bind]
            have hr := hin q k q0 q1 k0 k1
            obtain ⟨G, g1, g2, g3, g4, g5⟩ := Rel.dput_size w (B.entry q k) (i := q + si) (j := k + sj) (by rw [e1, e2]; exact hr)
            rw [e1] at g5
            have hlen : ((q + si) + (k + sj) * D.rows).toNat < F.data.length := by
              have := w.size
              rw [e1, e2] at this
              omega
            have hne : ∀ p : Int, (q + si) + (k + sj) * D.rows ≠ p → rd G.data p = rd F.data p := by
              intro p hp
              rw [g5]
              unfold rd
              by_cases p0 : 0 ≤ p
              · rw [List.getElem?_set_ne (by omega)]
              · rw [if_neg (by omega), if_neg (by omega)]
            refine ⟨G, g1, g2, by omega, by omega, ?_, ?_⟩
            · intro p hp
              rw [hne p (hp q k q0 q1 k0 (by omega))]
              exact a p fun i j i0 i1 j0 hh => hp i j i0 i1 j0 (by omega)
            · intro i j i0 i1 j0 hij hlater
              by_cases e : i = q ∧ j = k
              · obtain ⟨rfl, rfl⟩ := e
                rw [g5, rd_eq_ok]
                exact ⟨hr.1, List.getElem?_set_self hlen⟩
              · have : (q + si) + (k + sj) * D.rows ≠ (i + si) + (j + sj) * D.rows := by
                  by_cases hjk : j = k
                  · subst hjk
                    intro hh
                    exact e ⟨by omega, rfl⟩
                  · exact hlater q k q0 q1 (by omega) (by omega)
                rw [hne _ this]
                exact b i j i0 i1 j0 (by omega) fun i' j' a0 a1 a2 a3 => hlater i' j' a0 a1 a2 (by omega))
        refine ⟨F, f1, f2, f3, f4, ?_, ?_⟩
        · intro p hp
          exact f5 p fun i j i0 i1 j0 hh => hp i j i0 i1 j0 (by omega)
        · intro i j i0 i1 j0 hij hlater
          exact f6 i j i0 i1 j0 (by omega) fun i' j' a0 a1 a2 a3 => hlater i' j' a0 a1 a2 (by omega))
    refine ⟨E, h1, h2, h3, h4, ?_, ?_⟩
    · intro p hp
      exact h5 p fun i j i0 i1 j0 hh => hp i j i0 i1 j0 (by omega)
    · intro i j i0 i1 j0 hij hlater
      exact h6 i j i0 i1 j0 (by omega) fun i' j' a0 a1 a2 a3 => hlater i' j' a0 a1 a2 (by omega)
  · intro h
    have hstep : ∀ (i j : Int) (E : Dense α), 0 ≤ i → i < B.rows → 0 ≤ j → j < B.cols → E.WF ∧ E.rows = D.rows ∧ E.cols = D.cols →
        (do
          let x ← Rel.dget .release B i j
          Rel.dput .release E (i + si) (j + sj) x : Res (Dense α)) = .error .outOfBounds ∨ ∃ F, (do
          let x ← Rel.dget .release B i j
          Rel.dput .release E (i + si) (j + sj) x : Res (Dense α)) = .ok F ∧ F.WF ∧ F.rows = D.rows ∧ F.cols = D.cols := by
      rintro i j E i0 i1 j0 j1 ⟨hE, e1, e2⟩
      rw [Rel.dget_ok hB _ i0 i1 j0 j1, ok_bind]
      by_cases hc : 0 ≤ (i + si) + (j + sj) * D.rows ∧ (i + si) + (j + sj) * D.rows < D.rows * D.cols
      · right
        obtain ⟨F, f1, f2, f3, f4, -⟩ := Rel.dput_size hE (B.entry i j) (i := i + si) (j := j + sj) (by rw [e1, e2]; exact hc)
        exact ⟨F, f1, f2, by omega, by omega⟩
      · left
        exact Rel.dput_out hE _ (by rw [e1, e2]; omega)
    have hbad : ∃ i j : Int, 0 ≤ i ∧ i < B.rows ∧ 0 ≤ j ∧ j < B.cols ∧
        ((i + si) + (j + sj) * D.rows < 0 ∨ D.rows * D.cols ≤ (i + si) + (j + sj) * D.rows) := by
      by_cases hc : 0 ≤ si + sj * D.rows
      · exact ⟨B.rows - 1, B.cols - 1, by omega, by omega, by omega, by omega,
          Or.inr (by rw [ha, ← hlast]; by_contra hh; exact h (Or.inr (Or.inr ⟨hc, by omega⟩)))⟩
      · exact ⟨0, 0, le_rfl, by omega, le_rfl, by omega, Or.inl (by rw [zero_add, zero_add]; omega)⟩
    obtain ⟨i, j, i0, i1, j0, j1, hb⟩ := hbad
    refine forUp_stops (fun (E : Dense α) => E.WF ∧ E.rows = D.rows ∧ E.cols = D.cols) .outOfBounds ⟨hD, rfl, rfl⟩ ?_ ⟨j, j0, j1, ?_⟩
    · intro b E b0 b1 hE
      exact forUp_either (fun (E : Dense α) => E.WF ∧ E.rows = D.rows ∧ E.cols = D.cols) .outOfBounds hE fun a E a0 a1 hE => hstep a b E a0 a1 b0 b1 hE
    · intro E hE
      refine forUp_stops (fun (E : Dense α) => E.WF ∧ E.rows = D.rows ∧ E.cols = D.cols) .outOfBounds hE (fun a E a0 a1 hE => hstep a j E a0 a1 j0 j1 hE)
        ⟨i, i0, i1, ?_⟩
      rintro E ⟨hE, e1, e2⟩
      rw [Rel.dget_ok hB _ i0 i1 j0 j1, ok_bind]
      exact Rel.dput_out hE _ (by rw [e1, e2]; exact hb)

/-- **C144.**  Writing a block that is in range, with assertions or without, sets its elements and no others. -/
theorem C144_setSub_inside [Zero α] (D B : Dense α) (hD : D.WF) (hB : B.WF) (si sj : Int) (h0 : 0 ≤ si) (h1 : si + B.rows ≤ D.rows) (h2 : 0 ≤ sj)
    (h3 : sj + B.cols ≤ D.cols) :
    ∃ E, Rel.dsetSub .release D si sj B = .ok E ∧ E.Is D.rows D.cols
      (fun i j => if si ≤ i ∧ i < si + B.rows ∧ sj ≤ j ∧ j < sj + B.cols then B.entry (i - si) (j - sj) else D.entry i j) := by
  have r0 := hD.rows_nonneg
  have m0 := hB.rows_nonneg
  have n0 := hB.cols_nonneg
  -- addresses of elements in range are distinct
  have hinj : ∀ a b c d : Int, 0 ≤ a → a < D.rows → 0 ≤ c → c < D.rows → a + b * D.rows = c + d * D.rows → a = c ∧ b = d := by
    intro a b c d a0 a1 c0 c1 e
    have h5 := congrArg (· % D.rows) e
    simp only [Int.add_mul_emod_self_right, Int.emod_eq_of_lt a0 a1, Int.emod_eq_of_lt c0 c1] at h5
    refine ⟨h5, ?_⟩
    have h6 : b * D.rows = d * D.rows := by omega
    exact Int.eq_of_mul_eq_mul_right (by omega) h6
  obtain ⟨E, e1, e2, e3, e4, e5, e6⟩ := (C144_setSub D B hD hB si sj).1 (by
    by_cases hm : B.rows = 0
    · exact Or.inl hm
    by_cases hn : B.cols = 0
    · exact Or.inr (Or.inl hn)
    refine Or.inr (Or.inr ⟨by positivity, ?_⟩)
    have : (sj + B.cols - 1) * D.rows ≤ (D.cols - 1) * D.rows := mul_le_mul_of_nonneg_right (by omega) r0
    have h4 : (D.cols - 1) * D.rows = D.rows * D.cols - D.rows := by ring
    omega)
  refine ⟨E, e1, e2, e3, e4, ?_⟩
  intro i j i0 i1 j0 j1
  have hE : Rel.dget .release E i j = .ok (E.entry i j) := Rel.dget_ok e2 _ i0 (by omega) j0 (by omega)
  have hDe : Rel.dget .release D i j = .ok (D.entry i j) := Rel.dget_ok hD _ i0 i1 j0 j1
  have hE' : rd E.data (i + j * D.rows) = .ok (E.entry i j) := by rw [← hE, ← e3]; rfl
  have hD' : rd D.data (i + j * D.rows) = .ok (D.entry i j) := hDe
  by_cases hc : si ≤ i ∧ i < si + B.rows ∧ sj ≤ j ∧ j < sj + B.cols
  · rw [if_pos hc]
    have h7 := e6 (i - si) (j - sj) (by omega) (by omega) (by omega) (by omega) (by
      intro i' j' a0 a1 a2 a3 hh
      have := (hinj _ _ _ _ (by omega) (by omega) (by omega) (by omega) hh).2
      omega)
    rw [show i - si + si = i by omega, show j - sj + sj = j by omega, hE'] at h7
    exact (e2.is_entry.get_eq i j i0 (by omega) j0 (by omega)).trans h7
  · rw [if_neg hc]
    have h7 := e5 (i + j * D.rows) (by
      intro a b a0 a1 b0 b1 hh
      have := hinj _ _ _ _ (by omega) (by omega) i0 i1 hh
      exact hc (by omega))
    rw [hE', hD'] at h7
    exact (e2.is_entry.get_eq i j i0 (by omega) j0 (by omega)).trans h7

/-! ## Concrete cases -/

/-- `[[1, 3, 5], [2, 4, 6]]`. -/
def C144_D : Dense Int := ⟨2, 3, [1, 2, 3, 4, 5, 6]⟩

theorem C144_D_wf : C144_D.WF := ⟨by decide, by decide, by decide⟩

/-- A vector that is too long keeps its last element; one that is too short and a column that does not exist are errors. -/
example : Rel.dgetCol .release C144_D 1 [0, 0, 9] = .ok [3, 4, 9] ∧ Rel.dgetCol .release C144_D 1 [0] = .error .outOfBounds ∧
    Rel.dgetCol .release C144_D 3 [0, 0] = .error .outOfBounds ∧ Rel.dgetCol .debug C144_D 1 [0, 0, 9] = .error .assertFail := by decide +kernel

/-- The same for rows; here the row that does not exist is noticed in the last column only. -/
example : Rel.dgetRow .release C144_D 1 [0, 0, 0, 9] = .ok [2, 4, 6, 9] ∧ Rel.dgetRow .release C144_D 1 [0, 0] = .error .outOfBounds ∧
    Rel.dgetRow .release C144_D 2 [0, 0, 0] = .error .outOfBounds ∧ Rel.dget .release C144_D 2 0 = .ok 3 := by decide +kernel

example : Rel.dsetCol .release C144_D 1 [7, 8, 9] = .ok ⟨2, 3, [1, 2, 7, 8, 5, 6]⟩ ∧ Rel.dsetCol .release C144_D (-1) [7, 8] = .error .outOfBounds ∧
    Rel.dsetRow .release C144_D 0 [7, 8, 9, 10] = .ok ⟨2, 3, [7, 2, 8, 4, 9, 6]⟩ ∧ Rel.dsetRow .release C144_D 2 [7, 8, 9] = .error .outOfBounds := by
  decide +kernel

/-- The diagonal of a wide matrix, and of a tall one. -/
example : Rel.dgetDiag .release C144_D = .ok [1, 4] ∧ Rel.dgetDiag .release (⟨3, 2, [1, 2, 3, 4, 5, 6]⟩ : Dense Int) = .error .outOfBounds ∧
    Rel.dgetDiag .debug C144_D = .error .assertFail := by decide +kernel

/-- Rows 1 and 2 of a matrix with two rows: the second is the first row, moved by one column. -/
example : Rel.dgetSub .release C144_D 1 0 3 2 ⟨0, 0, []⟩ = .ok ⟨2, 2, [2, 3, 4, 5]⟩ ∧ Rel.dgetSub .release C144_D 1 0 3 3 ⟨0, 0, []⟩ = .error .outOfBounds ∧
    Rel.dgetSub .debug C144_D 1 0 3 2 ⟨0, 0, []⟩ = .error .assertFail := by decide +kernel

/-- A block with more rows than the matrix: the second column overwrites the end of the first. -/
example : Rel.dsetSub .release C144_D 0 0 ⟨3, 2, [11, 12, 13, 14, 15, 16]⟩ = .ok ⟨2, 3, [11, 12, 14, 15, 16, 6]⟩ ∧
    Rel.dsetSub .release C144_D 1 1 ⟨2, 2, [11, 12, 13, 14]⟩ = .error .outOfBounds ∧
    Rel.dsetSub .release C144_D 1 1 ⟨1, 2, [11, 12]⟩ = .ok ⟨2, 3, [1, 2, 3, 11, 5, 12]⟩ := by decide +kernel

/-- The hypotheses of the theorems hold in such cases. -/
example : ∃ E, Rel.dgetSub .release C144_D 1 0 3 2 ⟨0, 0, []⟩ = .ok E ∧ E.Is (3 - 1) (2 - 0) (fun i j => vecAt C144_D.data ((i + 1) + (j + 0) * C144_D.rows)) :=
  (C144_getSub C144_D ⟨0, 0, []⟩ C144_D_wf 1 0 3 2 (by decide) (by decide)).1 (by decide)

example : Rel.dsetSub .release C144_D 1 1 ⟨2, 2, [11, 12, 13, 14]⟩ = .error .outOfBounds :=
  (C144_setSub C144_D ⟨2, 2, [11, 12, 13, 14]⟩ C144_D_wf ⟨by decide, by decide, by decide⟩ 1 1).2 (by decide)

example : ∃ E, Rel.dsetSub .release C144_D 1 1 ⟨1, 2, [11, 12]⟩ = .ok E ∧ E.Is C144_D.rows C144_D.cols (fun i j =>
    if (1 : Int) ≤ i ∧ i < 1 + (⟨1, 2, [11, 12]⟩ : Dense Int).rows ∧ 1 ≤ j ∧ j < 1 + (⟨1, 2, [11, 12]⟩ : Dense Int).cols
    then (⟨1, 2, [11, 12]⟩ : Dense Int).entry (i - 1) (j - 1) else C144_D.entry i j) :=
  C144_setSub_inside C144_D ⟨1, 2, [11, 12]⟩ C144_D_wf ⟨by decide, by decide, by decide⟩ 1 1 (by decide) (by decide) (by decide) (by decide)

example : Rel.dgetRow .release C144_D 2 [0, 0, 0] = .error .outOfBounds := (C144_getRow C144_D C144_D_wf 2 [0, 0, 0]).2 (by decide)

example : Rel.dsetCol .release C144_D (-1) [7, 8] = .error .outOfBounds := (C144_setCol C144_D C144_D_wf (-1) [7, 8]).2 (by decide)

end Linalg
