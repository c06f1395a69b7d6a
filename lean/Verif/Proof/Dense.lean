import Verif.Spec.Dense
import Verif.Cpp.Lemmas
import Mathlib.Tactic.Linarith
import Mathlib.Tactic.Ring

/-! # Dense matrices as functions: helper lemmas -/

namespace Linalg
open Cpp

variable {α β σ : Type}

/-- Loops whose state is known in closed form. -/
theorem forUp_seq {n : Int} (hn : 0 ≤ n) {body : Int → σ → Res σ} (S : Int → σ)
    (h : ∀ j, 0 ≤ j → j < n → body j (S j) = .ok (S (j + 1))) :
    forUp 0 n (S 0) body = .ok (S n) := by
  obtain ⟨s', h1, h2⟩ := forUp_inv (a := 0) (b := n) hn (f := body) (fun j s => s = S j) (s := S 0) rfl (by
    rintro i s h0 h1 rfl
    exact ⟨_, h i h0 h1, rfl⟩)
  rw [h1, h2]

/-- The `m x n` matrix with entries `f`. -/
def Dense.ofFn (m n : Nat) (f : Int → Int → α) : Dense α :=
  ⟨m, n, (List.range (m * n)).map (fun k : Nat => f ((k % m : Nat) : Int) ((k / m : Nat) : Int))⟩

namespace Dense

@[simp] theorem ofFn_rows (m n : Nat) (f : Int → Int → α) : (ofFn m n f).rows = m := rfl
@[simp] theorem ofFn_cols (m n : Nat) (f : Int → Int → α) : (ofFn m n f).cols = n := rfl
@[simp] theorem ofFn_data_length (m n : Nat) (f : Int → Int → α) :
    (ofFn m n f).data.length = m * n := by simp [ofFn]

theorem ofFn_wf (m n : Nat) (f : Int → Int → α) : (ofFn m n f).WF := by
  refine ⟨by simp, by simp, by simp⟩

theorem idx_lt {m n i j : Nat} (hi : i < m) (hj : j < n) : i + j * m < m * n := by
  calc i + j * m < m + j * m := by omega
    _ = (j + 1) * m := by ring
    _ ≤ n * m := Nat.mul_le_mul_right _ hj
    _ = m * n := Nat.mul_comm _ _

theorem idx_mod {m i j : Nat} (hi : i < m) : (i + j * m) % m = i := by
  rw [Nat.add_mul_mod_self_right, Nat.mod_eq_of_lt hi]

theorem idx_div {m i j : Nat} (hi : i < m) : (i + j * m) / m = j := by
  rw [Nat.add_mul_div_right _ _ (by omega), Nat.div_eq_of_lt hi, Nat.zero_add]

theorem checkIdx_ok {D : Dense α} {i j : Int} (hi : 0 ≤ i) (hi' : i < D.rows) (hj : 0 ≤ j)
    (hj' : j < D.cols) : D.checkIdx i j = .ok () := by
  unfold checkIdx
  rw [cassert_true hi, cassert_true hj, cassert_true hi', cassert_true hj']; rfl

theorem checkIdx_err {D : Dense α} {i j : Int} (h : ¬ (0 ≤ i ∧ i < D.rows ∧ 0 ≤ j ∧ j < D.cols)) :
    D.checkIdx i j = .error .assertFail := by
  unfold checkIdx cassert
  by_cases h1 : i ≥ 0 <;> by_cases h2 : j ≥ 0 <;> by_cases h3 : i < D.rows <;>
    by_cases h4 : j < D.cols <;> (simp [h1, h2, h3, h4]; try first | rfl | omega)

theorem get_ofFn {m n : Nat} {f : Int → Int → α} {i j : Int} (hi : 0 ≤ i) (hi' : i < m) (hj : 0 ≤ j)
    (hj' : j < n) : (ofFn m n f).get i j = .ok (f i j) := by
  obtain ⟨a, rfl⟩ : ∃ a : Nat, i = a := ⟨i.toNat, by omega⟩
  obtain ⟨b, rfl⟩ : ∃ b : Nat, j = b := ⟨j.toNat, by omega⟩
  have ha : a < m := by omega
  have hb : b < n := by omega
  unfold get
  rw [checkIdx_ok hi hi' hj hj', ok_bind, rd_eq_ok]
  have e : ((a : Int) + b * (ofFn m n f).rows).toNat = a + b * m := by
    have : (a : Int) + b * (ofFn m n f).rows = ((a + b * m : Nat) : Int) := by simp
    rw [this, Int.toNat_natCast]
  refine ⟨by simp only [ofFn_rows]; positivity, ?_⟩
  rw [e]
  simp only [ofFn, List.getElem?_map, List.getElem?_range (idx_lt ha hb), Option.map_some,
    idx_mod ha, idx_div ha]

theorem ofFn_congr {m n : Nat} {f g : Int → Int → α}
    (h : ∀ i j, 0 ≤ i → i < (m : Int) → 0 ≤ j → j < (n : Int) → f i j = g i j) :
    ofFn m n f = ofFn m n g := by
  unfold ofFn
  congr 1
  apply List.map_congr_left
  intro k hk
  have hk := List.mem_range.mp hk
  have hm : 0 < m := Nat.pos_of_ne_zero (by rintro rfl; simp at hk)
  apply h
  · omega
  · exact_mod_cast Nat.mod_lt _ hm
  · exact Int.natCast_nonneg _
  · have : k / m < n := Nat.div_lt_of_lt_mul hk
    exact_mod_cast this

theorem put_ofFn {m n : Nat} {f : Int → Int → α} {i j : Int} (x : α) (hi : 0 ≤ i) (hi' : i < m)
    (hj : 0 ≤ j) (hj' : j < n) :
    (ofFn m n f).put i j x = .ok (ofFn m n (fun a b => if a = i ∧ b = j then x else f a b)) := by
  obtain ⟨a, rfl⟩ : ∃ a : Nat, i = a := ⟨i.toNat, by omega⟩
  obtain ⟨b, rfl⟩ : ∃ b : Nat, j = b := ⟨j.toNat, by omega⟩
  have ha : a < m := by omega
  have hb : b < n := by omega
  unfold put
  have e : ((a : Int) + b * (ofFn m n f).rows) = ((a + b * m : Nat) : Int) := by simp
  rw [checkIdx_ok hi hi' hj hj', ok_bind, e, wr_nat (by simpa using idx_lt ha hb), ok_bind]
  congr 1
  unfold ofFn
  simp only
  congr 1
  apply List.ext_getElem
  · simp
  · intro k h1 h2
    have hk : k < m * n := by simpa using h1
    have hm : 0 < m := by omega
    rw [List.getElem_set]
    simp only [List.getElem_map, List.getElem_range]
    by_cases hk' : a + b * m = k
    · rw [if_pos hk', ← hk', idx_mod ha, idx_div ha]; simp
    · rw [if_neg hk', if_neg]
      rintro ⟨h3, h4⟩
      apply hk'
      have h3 : k % m = a := by exact_mod_cast h3
      have h4 : k / m = b := by exact_mod_cast h4
      have := Nat.div_add_mod k m
      rw [h3, h4] at this
      rw [← this]; ring

theorem WF.eq_ofFn [Zero α] {D : Dense α} (h : D.WF) :
    D = ofFn D.rows.toNat D.cols.toNat D.entry := by
  obtain ⟨r, c, d⟩ := D
  have h1 := h.rows_nonneg
  have h2 := h.cols_nonneg
  have h3 := h.size
  simp only at h1 h2 h3
  obtain ⟨m, rfl⟩ : ∃ a : Nat, r = a := ⟨r.toNat, by omega⟩
  obtain ⟨n, rfl⟩ : ∃ a : Nat, c = a := ⟨c.toNat, by omega⟩
  have h3 : d.length = m * n := by exact_mod_cast h3
  unfold ofFn
  simp only [Int.toNat_natCast, Dense.mk.injEq, true_and]
  apply List.ext_getElem
  · simp [h3]
  · intro k hk1 hk2
    have hk : k < m * n := by omega
    have hm : 0 < m := Nat.pos_of_ne_zero (by rintro rfl; simp at hk)
    simp only [List.getElem_map, List.getElem_range, entry]
    have : (Dense.mk (m : Int) n d).get ((k % m : Nat) : Int) ((k / m : Nat) : Int) = .ok d[k] := by
      unfold get
      rw [checkIdx_ok (by omega) (by simp only; exact_mod_cast Nat.mod_lt _ hm) (Int.natCast_nonneg _)
        (by simp only; exact_mod_cast Nat.div_lt_of_lt_mul hk), ok_bind]
      have e : (((k % m : Nat) : Int) + ((k / m : Nat) : Int) * (m : Int)) = (k : Int) := by
        have := Nat.div_add_mod k m
        rw [Nat.mul_comm] at this
        exact_mod_cast (by omega : k % m + k / m * m = k)
      simp only [e]
      exact rd_nat hk1
    rw [this]

theorem WF.exists_fn [Zero α] {D : Dense α} (h : D.WF) :
    ∃ (m n : Nat) (f : Int → Int → α), D = ofFn m n f := ⟨_, _, _, h.eq_ofFn⟩

theorem is_ofFn (m n : Nat) (f : Int → Int → α) : (ofFn m n f).Is m n f :=
  ⟨ofFn_wf m n f, rfl, rfl, fun _ _ h1 h2 h3 h4 => get_ofFn h1 h2 h3 h4⟩

theorem Is.congr {D : Dense α} {m n : Int} {f g : Int → Int → α} (h : D.Is m n f)
    (hfg : ∀ i j, 0 ≤ i → i < m → 0 ≤ j → j < n → f i j = g i j) : D.Is m n g :=
  ⟨h.wf, h.rows_eq, h.cols_eq, fun i j h1 h2 h3 h4 => by rw [h.get_eq i j h1 h2 h3 h4, hfg i j h1 h2 h3 h4]⟩

theorem entry_ofFn [Zero α] {m n : Nat} {f : Int → Int → α} {i j : Int} (hi : 0 ≤ i) (hi' : i < m)
    (hj : 0 ≤ j) (hj' : j < n) : (ofFn m n f).entry i j = f i j := by
  unfold entry; rw [get_ofFn hi hi' hj hj']

/-- A matrix is determined by its shape and the results of its reads. -/
theorem Is.eq_ofFn [Zero α] {D : Dense α} {m n : Nat} {f : Int → Int → α} (h : D.Is m n f) :
    D = ofFn m n f := by
  have h1 := h.wf.eq_ofFn
  rw [h.rows_eq, h.cols_eq, Int.toNat_natCast, Int.toNat_natCast] at h1
  rw [h1]
  apply ofFn_congr
  intro i j a b c d
  unfold entry
  rw [h.get_eq i j a b c d]

theorem Is.unique [Zero α] {D E : Dense α} {m n : Int} {f : Int → Int → α} (h : D.Is m n f)
    (h' : E.Is m n f) : D = E := by
  have hm : 0 ≤ m := h.rows_eq ▸ h.wf.rows_nonneg
  have hn : 0 ≤ n := h.cols_eq ▸ h.wf.cols_nonneg
  obtain ⟨m, rfl⟩ : ∃ a : Nat, m = a := ⟨m.toNat, by omega⟩
  obtain ⟨n, rfl⟩ : ∃ a : Nat, n = a := ⟨n.toNat, by omega⟩
  rw [h.eq_ofFn, h'.eq_ofFn]

theorem WF.is_entry [Zero α] {D : Dense α} (h : D.WF) : D.Is D.rows D.cols D.entry := by
  have := is_ofFn D.rows.toNat D.cols.toNat D.entry
  rw [← h.eq_ofFn] at this
  have h1 : ((D.rows.toNat : Nat) : Int) = D.rows := by have := h.rows_nonneg; omega
  have h2 : ((D.cols.toNat : Nat) : Int) = D.cols := by have := h.cols_nonneg; omega
  rwa [h1, h2] at this

theorem length_resize (v : List α) (n : Nat) (x : α) : (resize v n x).length = n := by
  unfold resize; simp; omega

theorem setSize_wf [Zero α] (D : Dense α) {r c : Int} (hr : 0 ≤ r) (hc : 0 ≤ c) :
    ∃ E, D.setSize r c = .ok E ∧ E.WF ∧ E.rows = r ∧ E.cols = c := by
  unfold setSize
  rw [cassert_true hr, cassert_true hc]
  refine ⟨_, rfl, ⟨hr, hc, ?_⟩, rfl, rfl⟩
  have : 0 ≤ r * c := by positivity
  simp only [length_resize]; omega

theorem setSize_ofFn [Zero α] (D : Dense α) (m n : Nat) :
    ∃ f, D.setSize m n = .ok (ofFn m n f) := by
  obtain ⟨E, h1, h2, h3, h4⟩ := setSize_wf D (r := m) (c := n) (by omega) (by omega)
  refine ⟨E.entry, ?_⟩
  rw [h1, h2.eq_ofFn, h3, h4, Int.toNat_natCast, Int.toNat_natCast]
  congr 1
  apply ofFn_congr
  intro i j a b c d
  rw [entry_ofFn a b c d]

theorem fill_ofFn (m n : Nat) (f : Int → Int → α) (x : α) :
    (ofFn m n f).fill x = ofFn m n (fun _ _ => x) := by
  unfold fill ofFn
  simp only [List.length_map, List.length_range, Dense.mk.injEq, true_and]
  rw [List.map_const', List.length_range]

theorem zeros_ofFn [Zero α] (m n : Nat) :
    (zeros m n : Res (Dense α)) = .ok (ofFn m n (fun _ _ => 0)) := by
  unfold zeros ofData
  have e : ((m : Int) * n) = ((m * n : Nat) : Int) := by push_cast; rfl
  rw [e, mkVec_nat, ok_bind, cassert_true (by omega), cassert_true (by omega)]
  simp only [ok_bind]
  rw [cassert_true (by simp)]
  simp only [ok_bind]
  unfold ofFn
  rw [List.map_const', List.length_range]

/-- A column-by-column (outer `j`, inner `i`) writing loop on a block. -/
theorem blockLoop {M N m n : Nat} (f g : Int → Int → α) (si sj : Int) (hsi : 0 ≤ si) (hsj : 0 ≤ sj)
    (hi : si + m ≤ M) (hj : sj + n ≤ N) (body : Int → Int → Dense α → Res (Dense α))
    (hb : ∀ (i j : Int) h, 0 ≤ i → i < m → 0 ≤ j → j < n →
      (h (i + si) (j + sj) = f (i + si) (j + sj)) →
      body i j (ofFn M N h) = (ofFn M N h).put (i + si) (j + sj) (g i j)) :
    forUp 0 (n : Int) (ofFn M N f) (fun j D => forUp 0 (m : Int) D (fun i D => body i j D))
      = .ok (ofFn M N (fun a b =>
          if si ≤ a ∧ a < si + m ∧ sj ≤ b ∧ b < sj + n then g (a - si) (b - sj) else f a b)) := by
  have h0 : ofFn M N f = ofFn M N (fun a b =>
      if si ≤ a ∧ a < si + m ∧ sj ≤ b ∧ b < sj + 0 then g (a - si) (b - sj) else f a b) := by
    congr 1; funext a b; rw [if_neg (by omega)]
  rw [h0]
  refine forUp_seq (by omega) (fun j => ofFn M N (fun a b =>
      if si ≤ a ∧ a < si + m ∧ sj ≤ b ∧ b < sj + j then g (a - si) (b - sj) else f a b)) ?_
  intro j hj0 hj1
  have e1 : (ofFn M N (fun a b =>
      if si ≤ a ∧ a < si + m ∧ sj ≤ b ∧ b < sj + j then g (a - si) (b - sj) else f a b)) =
      ofFn M N (fun a b => if (si ≤ a ∧ a < si + m ∧ sj ≤ b ∧ b < sj + j) ∨
        (b = sj + j ∧ si ≤ a ∧ a < si + 0) then g (a - si) (b - sj) else f a b) := by
    congr 1; funext a b; congr 1; apply propext; constructor <;> intro h <;> omega
  have e2 : (ofFn M N (fun a b =>
      if si ≤ a ∧ a < si + m ∧ sj ≤ b ∧ b < sj + (j + 1) then g (a - si) (b - sj) else f a b)) =
      ofFn M N (fun a b => if (si ≤ a ∧ a < si + m ∧ sj ≤ b ∧ b < sj + j) ∨
        (b = sj + j ∧ si ≤ a ∧ a < si + m) then g (a - si) (b - sj) else f a b) := by
    congr 1; funext a b; congr 1; apply propext; constructor <;> intro h <;> omega
  rw [e1, e2]
  refine forUp_seq (by omega) (fun i => ofFn M N (fun a b =>
      if (si ≤ a ∧ a < si + m ∧ sj ≤ b ∧ b < sj + j) ∨
        (b = sj + j ∧ si ≤ a ∧ a < si + i) then g (a - si) (b - sj) else f a b)) ?_
  intro i hi0 hi1
  rw [hb i j _ hi0 hi1 hj0 hj1 (by rw [if_neg (by omega)]), put_ofFn _ (by omega) (by omega) (by omega) (by omega)]
  congr 1
  apply ofFn_congr
  intro a b _ _ _ _
  by_cases h : a = i + si ∧ b = j + sj
  · rw [if_pos h, if_pos (by omega), h.1, h.2]
    congr 1 <;> omega
  · rw [if_neg h]
    congr 1; apply propext; constructor <;> intro h <;> omega

/-- The whole-matrix case of `blockLoop`. -/
theorem fullLoop {m n : Nat} (f g : Int → Int → α) (body : Int → Int → Dense α → Res (Dense α))
    (hb : ∀ (i j : Int) h, 0 ≤ i → i < m → 0 ≤ j → j < n → h i j = f i j →
      body i j (ofFn m n h) = (ofFn m n h).put i j (g i j)) :
    forUp 0 (n : Int) (ofFn m n f) (fun j D => forUp 0 (m : Int) D (fun i D => body i j D))
      = .ok (ofFn m n g) := by
  rw [blockLoop f g 0 0 le_rfl le_rfl (by omega) (by omega) body
    (fun i j h a b c d e => by simpa using hb i j h a b c d (by simpa using e))]
  congr 1
  apply ofFn_congr
  intro i j _ _ _ _
  rw [if_pos (by omega)]; congr 1 <;> omega

/-- The same with the row loop outside. -/
theorem fullLoopRow {m n : Nat} (f g : Int → Int → α) (body : Int → Int → Dense α → Res (Dense α))
    (hb : ∀ (i j : Int) h, 0 ≤ i → i < m → 0 ≤ j → j < n → h i j = f i j →
      body i j (ofFn m n h) = (ofFn m n h).put i j (g i j)) :
    forUp 0 (m : Int) (ofFn m n f) (fun i D => forUp 0 (n : Int) D (fun j D => body i j D))
      = .ok (ofFn m n g) := by
  have e0 : ofFn m n f = ofFn m n (fun a b => if a < 0 then g a b else f a b) := by
    apply ofFn_congr; intros; rw [if_neg (by omega)]
  have e1 : ofFn m n g = ofFn m n (fun a b => if a < (m : Int) then g a b else f a b) := by
    apply ofFn_congr; intros; rw [if_pos (by omega)]
  rw [e0, e1]
  refine forUp_seq (by omega) (fun i => ofFn m n (fun a b => if a < i then g a b else f a b)) ?_
  intro i hi0 hi1
  have e2 : ofFn m n (fun a b => if a < i then g a b else f a b)
      = ofFn m n (fun a b => if a < i ∨ (a = i ∧ b < 0) then g a b else f a b) := by
    apply ofFn_congr; intros; congr 1; apply propext; omega
  have e3 : ofFn m n (fun a b => if a < i + 1 then g a b else f a b)
      = ofFn m n (fun a b => if a < i ∨ (a = i ∧ b < n) then g a b else f a b) := by
    apply ofFn_congr; intros; congr 1; apply propext; omega
  rw [e2, e3]
  refine forUp_seq (by omega)
    (fun j => ofFn m n (fun a b => if a < i ∨ (a = i ∧ b < j) then g a b else f a b)) ?_
  intro j hj0 hj1
  rw [hb i j _ hi0 hi1 hj0 hj1 (by rw [if_neg (by omega)]), put_ofFn _ (by omega) (by omega) (by omega) (by omega)]
  congr 1
  apply ofFn_congr
  intro a b _ _ _ _
  by_cases h : a = i ∧ b = j
  · rw [if_pos h, if_pos (by omega), h.1, h.2]
  · rw [if_neg h]
    congr 1; apply propext; omega

end Dense
end Linalg
