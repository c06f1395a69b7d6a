import Verif.Model.Self
import Verif.Spec.Self
import Verif.Proof.SparseDense
import Verif.Proof.InPlace
import Verif.Proof.Block
import Verif.Proof.Vec

/-! # Objects passed as their own argument: helper lemmas -/

namespace Linalg
open Cpp

variable {α σ : Type}

/-- Two nested loops whose state is known in closed form. -/
theorem forUp_grid {m n : Int} (hm : 0 ≤ m) (hn : 0 ≤ n) {body : Int → Int → σ → Res σ} (S : Int → Int → σ)
    (hS : ∀ j, 0 ≤ j → j < n → S j m = S (j + 1) 0)
    (h : ∀ j i, 0 ≤ j → j < n → 0 ≤ i → i < m → body j i (S j i) = .ok (S j (i + 1))) :
    forUp 0 n (S 0 0) (fun j s => forUp 0 m s (fun i s => body j i s)) = .ok (S n 0) := by
  refine forUp_seq hn (fun j => S j 0) ?_
  intro j j0 j1
  rw [← hS j j0 j1]
  exact forUp_seq hm (fun i => S j i) (fun i i0 i1 => h j i j0 j1 i0 i1)

/-- The same, the bound of the inner loop being read from the state. -/
theorem forUp_grid' {m n : Int} (hm : 0 ≤ m) (hn : 0 ≤ n) {body : Int → Int → σ → Res σ} (S : Int → Int → σ) (bd : σ → Int)
    (hbd : ∀ j i, bd (S j i) = m) (hS : ∀ j, 0 ≤ j → j < n → S j m = S (j + 1) 0)
    (h : ∀ j i, 0 ≤ j → j < n → 0 ≤ i → i < m → body j i (S j i) = .ok (S j (i + 1))) :
    forUp 0 n (S 0 0) (fun j s => forUp 0 (bd s) s (fun i s => body j i s)) = .ok (S n 0) := by
  refine forUp_seq hn (fun j => S j 0) ?_
  intro j j0 j1
  rw [← hS j j0 j1, hbd]
  exact forUp_seq hm (fun i => S j i) (fun i i0 i1 => h j i j0 j1 i0 i1)

theorem resize_self (v : List α) (x : α) (n : Nat) (h : v.length = n) : resize v n x = v := by
  subst h; simp [resize]

theorem forUp_congr_inv {a b : Int} {f g : Int → σ → Res σ} (I : Int → σ → Prop) {s : σ} (hab : a ≤ b) (h0 : I a s)
    (hfg : ∀ i s, a ≤ i → i < b → I i s → f i s = g i s)
    (hI : ∀ i s s', a ≤ i → i < b → I i s → g i s = .ok s' → I (i + 1) s') :
    forUp a b s f = forUp a b s g ∧ ∀ s', forUp a b s g = .ok s' → I b s' := by
  obtain ⟨n, hn⟩ : ∃ n : Nat, b = a + n := ⟨(b - a).toNat, by omega⟩
  induction n generalizing a s with
  | zero =>
    obtain rfl : b = a := by omega
    rw [forUp_nil le_rfl, forUp_nil le_rfl]
    exact ⟨rfl, fun s' h => Except.ok.inj h ▸ h0⟩
  | succ n ih =>
    rw [forUp_cons (by omega), forUp_cons (by omega), hfg a s le_rfl (by omega) h0]
    cases hg : g a s with
    | error e => exact ⟨rfl, fun s' h => by cases h⟩
    | ok t =>
      simp only [ok_bind]
      exact ih (by omega) (hI a s t le_rfl (by omega) h0 hg) (fun i s hi => hfg i s (by omega)) (fun i s s' hi => hI i s s' (by omega)) (by omega)

theorem flatten_take_succ_length {β : Type} (rs : List (List β)) (k : Nat) (hk : k < rs.length) :
    (rs.take (k + 1)).flatten.length = (rs.take k).flatten.length + rs[k].length := by
  rw [List.take_succ_eq_append_getElem hk, List.flatten_append, List.length_append]
  simp only [List.flatten_cons, List.flatten_nil, List.append_nil]

/-- Unchanged from position `p` on. -/
def SameFrom (p : Int) (d e : List α) : Prop := d.length = e.length ∧ ∀ q, p ≤ q → rd d q = rd e q

theorem SameFrom.set {p : Int} {d e d' : List α} {x : α} (h : SameFrom p d e) (hw : wr d p x = .ok d') : SameFrom (p + 1) d' e := by
  have hr : 0 ≤ p ∧ p < d.length := by
    by_contra hc
    rw [wr_oob (by omega)] at hw
    cases hw
  rw [wr_int hr.1 hr.2] at hw
  obtain rfl := Except.ok.inj hw
  refine ⟨by simpa using h.1, fun q hq => ?_⟩
  rw [← h.2 q (by omega)]
  by_cases hl : q < d.length
  · rw [rd_int (by omega) (by simpa using hl), rd_int (by omega) hl]
    congr 1
    rw [List.getElem_set_ne]
    omega
  · rw [rd_oob (by simp; omega), rd_oob (by omega)]

theorem forUp_congr_inv' (d : List α) {n : Int} (hn : 0 ≤ n) {f : α → α → α} :
    forUp 0 n d (fun i data => (do
        let a ← rd data i
        let b ← rd data i
        wr data i (f a b) : Res (List α)))
      = forUp 0 n d (fun i data => (do
        let a ← rd data i
        let b ← rd d i
        wr data i (f a b) : Res (List α))) ∧ True := by
  refine ⟨(forUp_congr_inv (fun i e => SameFrom i e d) hn ⟨rfl, fun _ _ => rfl⟩ ?_ ?_).1, trivial⟩
  · intro i e i0 i1 he
    rw [he.2 i le_rfl]
  · intro i e e' i0 i1 he hw
    obtain ⟨a, _, hw⟩ := bind_eq_ok.1 hw
    obtain ⟨b, _, hw⟩ := bind_eq_ok.1 hw
    exact he.set hw

namespace Dense

theorem setSize_self [Zero α] (m n : Nat) (f : Int → Int → α) : (ofFn m n f).setSize m n = .ok (ofFn m n f) := by
  unfold setSize
  rw [cassert_true (by omega), ok_bind, cassert_true (by omega), ok_bind]
  rw [resize_self _ _ _ (by simp; norm_cast)]
  rfl

theorem get_err {D : Dense α} {i j : Int} (h : ¬ (0 ≤ i ∧ i < D.rows ∧ 0 ≤ j ∧ j < D.cols)) : D.get i j = .error .assertFail := by
  unfold get; rw [checkIdx_err h]; rfl

theorem put_err {D : Dense α} {i j : Int} {x : α} (h : ¬ (0 ≤ i ∧ i < D.rows ∧ 0 ≤ j ∧ j < D.cols)) : D.put i j x = .error .assertFail := by
  unfold put; rw [checkIdx_err h]; rfl

theorem checkRange_ok {D : Dense α} {si sj ei ej : Int} (h1 : 0 ≤ si) (h2 : si < D.rows) (h3 : 0 ≤ sj) (h4 : sj < D.cols)
    (h5 : si ≤ ei) (h6 : ei ≤ D.rows) (h7 : sj ≤ ej) (h8 : ej ≤ D.cols) : D.checkRange si sj ei ej = .ok () := by
  unfold checkRange
  rw [cassert_true ⟨h1, h2⟩, ok_bind, cassert_true ⟨h3, h4⟩, ok_bind, cassert_true ⟨by omega, h6⟩, ok_bind,
    cassert_true ⟨by omega, h8⟩, ok_bind, cassert_true ⟨h5, h7⟩]

theorem transposeSelf_ofFn [Zero α] (n : Nat) (f : Int → Int → α) :
    (ofFn n n f).transposeSelf = .ok (ofFn n n (fun a b => if b ≤ a then f b a else f a b)) := by
  unfold transposeSelf
  rw [show (ofFn n n f).setSize (ofFn n n f).cols (ofFn n n f).rows = (ofFn n n f).setSize n n from rfl, setSize_self, ok_bind]
  have key := forUp_grid' (m := n) (n := n) (by omega) (by omega)
    (body := fun i j (D : Dense α) => (do
      let x ← D.get i j
      D.put j i x : Res (Dense α)))
    (fun i j => ofFn n n (fun a b => if (b < i ∨ (b = i ∧ a < j)) ∧ b ≤ a then f b a else f a b))
    Dense.cols (fun _ _ => rfl) (by
      intro i i0 i1
      apply ofFn_congr
      intro a b a0 a1 b0 b1
      congr 1; apply propext; constructor <;> intro h <;> omega)
    (by
      intro i j i0 i1 j0 j1
      rw [get_ofFn i0 (by omega) j0 (by omega), ok_bind, put_ofFn _ j0 (by omega) i0 (by omega)]
      congr 1
      apply ofFn_congr
      intro a b a0 a1 b0 b1
      by_cases h : a = j ∧ b = i
      · obtain ⟨rfl, rfl⟩ := h
        rw [if_pos ⟨rfl, rfl⟩]
        by_cases h2 : b ≤ a
        · rw [if_pos (c := (b < b ∨ b = b ∧ a < a + 1) ∧ b ≤ a) (by omega)]
          by_cases h3 : a = b
          · subst h3; rw [if_neg (by omega)]
          · rw [if_neg (by omega)]
        · rw [if_pos (by omega), if_neg (by omega)]
      · rw [if_neg h]
        congr 1; apply propext; constructor <;> intro h <;> omega)
  have e0 : ofFn n n f = ofFn n n (fun a b => if (b < 0 ∨ (b = 0 ∧ a < 0)) ∧ b ≤ a then f b a else f a b) := by
    apply ofFn_congr; intro a b _ _ _ _; rw [if_neg (by omega)]
  simp only [ofFn_rows]
  rw [e0, key]
  congr 1
  apply ofFn_congr
  intro a b _ _ _ _
  congr 1; apply propext; constructor <;> intro h <;> omega

/-- A loop over `n` columns, `m` rows: the loops keep the sizes and fail at the first position that is out of range. -/
theorem grid_fails {m n : Int} {body : Int → Int → Dense α → Res (Dense α)} (I : Dense α → Prop) (good : Int → Int → Prop) {D : Dense α} (hD : I D)
    (hg : ∀ j i D, 0 ≤ j → j < n → 0 ≤ i → i < m → I D → good j i → ∃ E, body j i D = .ok E ∧ I E)
    (hb : ∀ j i D, 0 ≤ j → j < n → 0 ≤ i → i < m → I D → ¬ good j i → body j i D = .error .assertFail)
    (hex : ∃ j i, 0 ≤ j ∧ j < n ∧ 0 ≤ i ∧ i < m ∧ ¬ good j i) :
    forUp 0 n D (fun j D => forUp 0 m D (fun i D => body j i D)) = .error .assertFail := by
  obtain ⟨j, i, j0, j1, i0, i1, hji⟩ := hex
  refine forUp_fails (fun _ => I) (fun j => ∀ i, 0 ≤ i → i < m → good j i) _ hD ?_ ?_ ⟨j, j0, j1, fun h => hji (h i i0 i1)⟩
  · intro j D j0 j1 hD hgood
    exact forUp_inv (by omega) (fun _ => I) hD (fun i D i0 i1 hD => hg j i D j0 j1 i0 i1 hD (hgood i i0 i1))
  · intro j D j0 j1 hD hbad
    push Not at hbad
    obtain ⟨i, i0, i1, hi⟩ := hbad
    exact forUp_fails (fun _ => I) (good j) _ hD (fun i D i0 i1 hD => hg j i D j0 j1 i0 i1 hD)
      (fun i D i0 i1 hD => hb j i D j0 j1 i0 i1 hD) ⟨i, i0, i1, hi⟩

theorem get_some {D : Dense α} (h : D.WF) {i j : Int} (hi : 0 ≤ i) (hi' : i < D.rows) (hj : 0 ≤ j) (hj' : j < D.cols) : ∃ x, D.get i j = .ok x := by
  unfold get
  rw [checkIdx_ok hi hi' hj hj', ok_bind]
  have : i + j * D.rows < D.data.length := by rw [h.size]; nlinarith [h.rows_nonneg]
  rw [rd_int (by have := h.rows_nonneg; positivity) this]
  exact ⟨_, rfl⟩

theorem put_some {D : Dense α} (h : D.WF) {i j : Int} (x : α) (hi : 0 ≤ i) (hi' : i < D.rows) (hj : 0 ≤ j) (hj' : j < D.cols) :
    ∃ E, D.put i j x = .ok E ∧ E.WF ∧ E.rows = D.rows ∧ E.cols = D.cols := by
  unfold put
  rw [checkIdx_ok hi hi' hj hj', ok_bind]
  have h1 : i + j * D.rows < D.data.length := by rw [h.size]; nlinarith [h.rows_nonneg]
  rw [wr_int (by have := h.rows_nonneg; positivity) h1]
  exact ⟨_, rfl, ⟨h.rows_nonneg, h.cols_nonneg, by simpa using h.size⟩, rfl, rfl⟩

/-- A well-formed matrix with the given sizes. -/
def Sized (r c : Int) (D : Dense α) : Prop := D.WF ∧ D.rows = r ∧ D.cols = c

theorem put_get {D : Dense α} {i j : Int} {x : α} (h : D.get i j = .ok x) : D.put i j x = .ok D := by
  unfold get at h
  obtain ⟨u, h1, h2⟩ := bind_eq_ok.1 h
  unfold put
  rw [h1, ok_bind]
  have hr : 0 ≤ i + j * D.rows ∧ i + j * D.rows < D.data.length := by
    by_contra hc
    rw [rd_oob (by omega)] at h2
    cases h2
  obtain ⟨p, hp⟩ := Int.eq_ofNat_of_zero_le hr.1
  rw [hp] at h2 hr ⊢
  rw [wr_nat (by omega), ok_bind, set_getElem_self _ _ _ h2]

theorem getSubMatrixSelf_start [Zero α] (D : Dense α) (h : D.WF) {ei ej : Int} (hi : 0 < ei) (hi' : ei ≤ D.rows) (hj : 0 < ej) (hj' : ej ≤ D.cols) :
    D.getSubMatrixSelf 0 0 ei ej = D.setSize ei ej := by
  unfold getSubMatrixSelf
  rw [checkRange_ok le_rfl (by omega) le_rfl (by omega) hi.le hi' hj.le hj', ok_bind]
  obtain ⟨E, h1, h2, h3, h4⟩ := setSize_wf D hi.le hj.le
  simp only [Int.sub_zero]
  rw [h1, ok_bind]
  have := forUp_grid (m := ei) (n := ej) hi.le hj.le (body := fun j i (D : Dense α) => (do
      let x ← D.get (i + 0) (j + 0)
      D.put i j x : Res (Dense α))) (fun _ _ => E) (fun _ _ _ => rfl) (by
    intro j i j0 j1 i0 i1
    obtain ⟨x, hx⟩ := get_some h2 (i := i) (j := j) i0 (by omega) j0 (by omega)
    simp only [Int.add_zero]
    rw [hx, ok_bind, put_get hx])
  exact this

theorem setSubMatrixSelf_ofFn {m n si sj ei ej : Nat} (f : Nat → Nat → α) (h1 : si < m) (h2 : sj < n) (h3 : si ≤ ei) (h4 : ei ≤ m)
    (h5 : sj ≤ ej) (h6 : ej ≤ n) :
    (ofFn m n (fun a b => f a.toNat b.toNat)).setSubMatrixSelf si sj ei ej
      = .ok (ofFn m n (fun a b => f (shiftBack si sj ei ej a.toNat b.toNat).1 (shiftBack si sj ei ej a.toNat b.toNat).2)) := by
  unfold setSubMatrixSelf
  rw [checkRange_ok (by omega) (by simp; omega) (by omega) (by simp; omega) (by omega) (by simp; omega) (by omega) (by simp; omega), ok_bind]
  set F : Int → Int → α := fun a b => f (shiftBack si sj ei ej a.toNat b.toNat).1 (shiftBack si sj ei ej a.toNat b.toNat).2 with hF
  let f' : Int → Int → α := fun a b => f a.toNat b.toNat
  have hout : ∀ a b : Int, 0 ≤ a → 0 ≤ b → ¬ ((0 < si ∨ 0 < sj) ∧ (si : Int) ≤ a ∧ a < ei ∧ (sj : Int) ≤ b ∧ b < ej) → F a b = f' a b := by
    intro a b a0 b0 hc
    simp only [hF, f']
    rw [shiftBack, dif_neg (by omega)]
  have hin : ∀ i j : Int, 0 ≤ i → i < (ei : Int) - si → 0 ≤ j → j < (ej : Int) - sj → F (i + si) (j + sj) = F i j := by
    intro i j i0 i1 j0 j1
    by_cases hz : 0 < si ∨ 0 < sj
    · simp only [hF]
      rw [shiftBack, dif_pos (by omega)]
      have e1 : (i + si).toNat - si = i.toNat := by omega
      have e2 : (j + sj).toNat - sj = j.toNat := by omega
      rw [e1, e2]
    · obtain ⟨rfl, rfl⟩ : si = 0 ∧ sj = 0 := by omega
      simp
  have key := forUp_grid (m := (ei : Int) - si) (n := (ej : Int) - sj) (by omega) (by omega) (body := fun j i (D : Dense α) => (do
      let x ← D.get i j
      D.put (i + si) (j + sj) x : Res (Dense α)))
    (fun j i => ofFn m n (fun a b => if b < sj + j ∨ (b = sj + j ∧ a < si + i) ∨ ej ≤ b then F a b else f' a b)) (by
      intro j j0 j1
      apply ofFn_congr
      intro a b a0 a1 b0 b1
      by_cases hc : (b = sj + j ∧ ei ≤ a)
      · rw [if_neg (by omega), if_pos (by omega), hout a b a0 b0 (by omega)]
      · by_cases hc2 : (b = sj + (j + 1) ∧ a < si)
        · rw [if_pos (c := b < sj + (j + 1) ∨ (b = sj + (j + 1) ∧ a < si + 0) ∨ ej ≤ b) (by omega)]
          split
          · rfl
          · exact (hout a b a0 b0 (by omega)).symm
        · congr 1; apply propext; constructor <;> intro h <;> omega) (by
      intro j i j0 j1 i0 i1
      rw [get_ofFn i0 (by omega) j0 (by omega), ok_bind, put_ofFn _ (by omega) (by omega) (by omega) (by omega)]
      congr 1
      apply ofFn_congr
      intro a b a0 a1 b0 b1
      by_cases hab : a = i + si ∧ b = j + sj
      · obtain ⟨rfl, rfl⟩ := hab
        rw [if_pos ⟨rfl, rfl⟩, if_pos (c := j + (sj : Int) < sj + j ∨ _) (by omega), hin i j i0 (by omega) j0 (by omega)]
        split
        · rfl
        · exact (hout i j i0 j0 (by omega)).symm
      · rw [if_neg hab]
        congr 1; apply propext; constructor <;> intro h <;> omega)
  have e0 : ofFn m n (fun a b => f a.toNat b.toNat) = ofFn m n (fun a b => if b < sj + 0 ∨ (b = sj + 0 ∧ a < si + 0) ∨ (ej : Int) ≤ b then F a b else f' a b) := by
    apply ofFn_congr
    intro a b a0 a1 b0 b1
    split
    · exact (hout a b a0 b0 (by omega)).symm
    · rfl
  rw [e0, key]
  congr 1
  apply ofFn_congr
  intro a b a0 a1 b0 b1
  split
  · rfl
  · exact (hout a b a0 b0 (by omega)).symm

theorem chase_self {r : Int → Int} {i : Nat} (h : ¬ (0 ≤ r i ∧ r i < i)) : chase r i = r i := by
  rw [chase, dif_neg h]

theorem chase_step {r : Int → Int} {i : Nat} (h : 0 ≤ r i ∧ r i < i) : chase r i = chase r (r i).toNat := by
  conv_lhs => rw [chase]
  rw [dif_pos h]

theorem getRowIdxSelf_ofFn {n c : Nat} (f : Int → Int → α) (rows : List Int) (hl : rows.length = n) (hr : ∀ r ∈ rows, 0 ≤ r ∧ r < n) :
    (ofFn n c f).getRowIdxSelf rows = .ok (ofFn n c (fun i j => f (chase (vecAt rows) i.toNat) j)) := by
  subst hl
  unfold getRowIdxSelf
  rw [cassert_true rfl, ok_bind, cassert_true (by simp), ok_bind]
  have hrow : ∀ i : Int, 0 ≤ i → i < rows.length → rd rows i = .ok (vecAt rows i) ∧ 0 ≤ vecAt rows i ∧ vecAt rows i < rows.length := by
    intro i i0 i1
    have e := (vecIs_vecAt rows).2 i i0 i1
    exact ⟨e, hr _ (by
      rw [rd_eq_ok] at e
      exact List.mem_of_getElem? e.2)⟩
  have e0 : ofFn rows.length c f = ofFn rows.length c (fun a b => if a < 0 then f (chase (vecAt rows) a.toNat) b else f a b) := by
    apply ofFn_congr; intros; rw [if_neg (by omega)]
  have e1 : ofFn rows.length c (fun i j => f (chase (vecAt rows) i.toNat) j)
      = ofFn rows.length c (fun a b => if a < (rows.length : Int) then f (chase (vecAt rows) a.toNat) b else f a b) := by
    apply ofFn_congr; intros; rw [if_pos (by omega)]
  rw [e0, e1]
  refine forUp_seq (by omega) (fun i => ofFn rows.length c (fun a b => if a < i then f (chase (vecAt rows) a.toNat) b else f a b)) ?_
  intro i i0 i1
  obtain ⟨q1, q2, q3⟩ := hrow i i0 i1
  rw [q1, ok_bind]
  have e2 : ofFn rows.length c (fun a b => if a < i then f (chase (vecAt rows) a.toNat) b else f a b)
      = ofFn rows.length c (fun a b => if a < i ∨ (a = i ∧ b < 0) then f (chase (vecAt rows) a.toNat) b else f a b) := by
    apply ofFn_congr; intros; congr 1; apply propext; omega
  have e3 : ofFn rows.length c (fun a b => if a < i + 1 then f (chase (vecAt rows) a.toNat) b else f a b)
      = ofFn rows.length c (fun a b => if a < i ∨ (a = i ∧ b < c) then f (chase (vecAt rows) a.toNat) b else f a b) := by
    apply ofFn_congr; intros; congr 1; apply propext; omega
  rw [e2, e3]
  refine forUp_seq (by simp) (fun j => ofFn rows.length c (fun a b => if a < i ∨ (a = i ∧ b < j) then f (chase (vecAt rows) a.toNat) b else f a b)) ?_
  intro j j0 j1
  simp only [ofFn_cols] at j1
  have hci : vecAt rows ((i.toNat : Nat) : Int) = vecAt rows i := by rw [Int.toNat_of_nonneg i0]
  rw [get_ofFn q2 q3 j0 j1, ok_bind, put_ofFn _ i0 i1 j0 j1]
  congr 1
  apply ofFn_congr
  intro a b a0 a1 b0 b1
  by_cases hab : a = i ∧ b = j
  · obtain ⟨rfl, rfl⟩ := hab
    rw [if_pos ⟨rfl, rfl⟩, if_pos (c := a < a ∨ a = a ∧ b < b + 1) (by omega)]
    by_cases hlt : vecAt rows a < a
    · rw [if_pos (by omega), chase_step (i := a.toNat) (by rw [hci]; omega), hci]
    · rw [if_neg (by omega), chase_self (i := a.toNat) (by rw [hci]; omega), hci]
  · rw [if_neg hab]
    congr 1; apply propext; constructor <;> intro h <;> omega

theorem getSubMatrixIdxSelf_ofFn [Zero α] (D : Dense α) (rows cols : List Int) (hr : ∀ r ∈ rows, 0 ≤ r ∧ r < rows.length)
    (hc : ∀ r ∈ cols, 0 ≤ r ∧ r < cols.length) : D.getSubMatrixIdxSelf rows cols = .ok (ofFn rows.length cols.length (fun _ _ => 0)) := by
  unfold getSubMatrixIdxSelf
  obtain ⟨f, hf⟩ := setSize_ofFn D rows.length cols.length
  rw [hf, ok_bind]
  simp only [fill_ofFn]
  refine forUp_seq (by omega) (fun _ => ofFn rows.length cols.length (fun _ _ => (0 : α))) ?_
  intro j j0 j1
  rw [rd_int j0 j1, ok_bind]
  refine forUp_seq (by omega) (fun _ => ofFn rows.length cols.length (fun _ _ => (0 : α))) ?_
  intro i i0 i1
  rw [rd_int i0 i1, ok_bind]
  have h1 := hr _ (List.getElem_mem (l := rows) (n := i.toNat) (by omega))
  have h2 := hc _ (List.getElem_mem (l := cols) (n := j.toNat) (by omega))
  rw [get_ofFn h1.1 h1.2 h2.1 h2.2, ok_bind, put_ofFn _ i0 i1 j0 j1]
  congr 1
  apply ofFn_congr
  intros; split <;> rfl

theorem getSubMatrixIdxSelf_fails [Zero α] (D : Dense α) (rows cols : List Int) (h : ∃ r ∈ rows, ∃ c ∈ cols, ¬ (0 ≤ r ∧ r < rows.length ∧ 0 ≤ c ∧ c < cols.length)) :
    D.getSubMatrixIdxSelf rows cols = .error .assertFail := by
  unfold getSubMatrixIdxSelf
  obtain ⟨f, hf⟩ := setSize_ofFn D rows.length cols.length
  rw [hf, ok_bind]
  simp only [fill_ofFn]
  obtain ⟨r, hr, c, hc, hbad⟩ := h
  obtain ⟨i, hi, rfl⟩ := List.mem_iff_getElem.1 hr
  obtain ⟨j, hj, rfl⟩ := List.mem_iff_getElem.1 hc
  have h0 : Sized rows.length cols.length (ofFn rows.length cols.length (fun _ _ => (0 : α))) := ⟨ofFn_wf _ _ _, rfl, rfl⟩
  refine forUp_fails (fun _ (E : Dense α) => E.Sized rows.length cols.length)
    (fun j => ∀ i : Int, 0 ≤ i → i < rows.length → 0 ≤ vecAt rows i ∧ vecAt rows i < rows.length ∧ 0 ≤ vecAt cols j ∧ vecAt cols j < cols.length) _ h0 ?_ ?_ ?_
  · rintro j (E : Dense α) j0 j1 hE hg
    have ec : rd cols j = .ok (vecAt cols j) := (vecIs_vecAt cols).2 j j0 j1
    rw [ec, ok_bind]
    refine forUp_inv (by omega) (fun _ (E : Dense α) => E.Sized rows.length cols.length) hE ?_
    rintro i (E : Dense α) i0 i1 ⟨hW, hR, hC⟩
    have er : rd rows i = .ok (vecAt rows i) := (vecIs_vecAt rows).2 i i0 i1
    rw [er, ok_bind]
    obtain ⟨g1, g2, g3, g4⟩ := hg i i0 i1
    obtain ⟨x, hx⟩ := get_some hW g1 (by omega) g3 (by omega)
    rw [hx, ok_bind]
    obtain ⟨G, e1, e2, e3, e4⟩ := put_some hW x i0 (by omega) j0 (by omega)
    exact ⟨G, e1, e2, by omega, by omega⟩
  · rintro j (E : Dense α) j0 j1 hE hb
    have ec : rd cols j = .ok (vecAt cols j) := (vecIs_vecAt cols).2 j j0 j1
    rw [ec, ok_bind]
    refine forUp_fails (fun _ (E : Dense α) => E.Sized rows.length cols.length)
      (fun i => 0 ≤ vecAt rows i ∧ vecAt rows i < rows.length ∧ 0 ≤ vecAt cols j ∧ vecAt cols j < cols.length) _ hE ?_ ?_ ?_
    · rintro i (E : Dense α) i0 i1 ⟨hW, hR, hC⟩ ⟨g1, g2, g3, g4⟩
      have er : rd rows i = .ok (vecAt rows i) := (vecIs_vecAt rows).2 i i0 i1
      rw [er, ok_bind]
      obtain ⟨x, hx⟩ := get_some hW g1 (by omega) g3 (by omega)
      rw [hx, ok_bind]
      obtain ⟨G, e1, e2, e3, e4⟩ := put_some hW x i0 (by omega) j0 (by omega)
      exact ⟨G, e1, e2, by omega, by omega⟩
    · rintro i (E : Dense α) i0 i1 ⟨hW, hR, hC⟩ hbad
      have er : rd rows i = .ok (vecAt rows i) := (vecIs_vecAt rows).2 i i0 i1
      rw [er, ok_bind, get_err (by rw [hR, hC]; exact hbad)]; rfl
    · push Not at hb
      obtain ⟨i, i0, i1, hi⟩ := hb
      exact ⟨i, i0, i1, fun h => absurd (hi h.1 h.2.1 h.2.2.1) (by omega)⟩
  · refine ⟨j, by omega, by omega, fun hg => hbad ?_⟩
    have := hg i (by omega) (by omega)
    have e1 : vecAt rows (i : Int) = rows[i] := by simp [vecAt, hi]
    have e2 : vecAt cols (j : Int) = cols[j] := by simp [vecAt, hj]
    rwa [e1, e2] at this

theorem rd_col {D : Dense α} {i col : Int} (hi : 0 ≤ i) (hi' : i < D.rows) (hc : 0 ≤ col) (hc' : col < D.cols) :
    (⟨col * D.rows, D.rows⟩ : View).get D.data i = D.get i col := by
  unfold View.get Dense.get
  rw [cassert_true hi', checkIdx_ok hi hi' hc hc']
  simp only [ok_bind]
  rw [Int.add_comm]

theorem setRowColSelf_ofFn (n : Nat) (f : Int → Int → α) {row col : Int} (r0 : 0 ≤ row) (r1 : row < n) (c0 : 0 ≤ col) (c1 : col < n) :
    (ofFn n n f).setRowColSelf row col
      = .ok (ofFn n n (fun i j => if i = row then (if j = row ∧ col < row then f col col else f j col) else f i j)) := by
  unfold setRowColSelf getColView
  rw [cassert_true ⟨c0, c1⟩]
  simp only [ok_bind]
  rw [cassert_true ⟨r0, r1⟩, ok_bind, cassert_true (show (ofFn n n f).rows = (ofFn n n f).cols from rfl), ok_bind]
  simp only [ofFn_rows, ofFn_cols]
  have e0 : ofFn n n f = ofFn n n (fun i j => if i = row ∧ j < 0 then (if j = row ∧ col < row then f col col else f j col) else f i j) := by
    apply ofFn_congr; intros; rw [if_neg (by omega)]
  have e1 : ofFn n n (fun i j => if i = row then (if j = row ∧ col < row then f col col else f j col) else f i j)
      = ofFn n n (fun i j => if i = row ∧ j < (n : Int) then (if j = row ∧ col < row then f col col else f j col) else f i j) := by
    apply ofFn_congr; intros; congr 1; apply propext; omega
  rw [e0, e1]
  refine forUp_seq (by omega) (fun k => ofFn n n (fun i j => if i = row ∧ j < k then (if j = row ∧ col < row then f col col else f j col) else f i j)) ?_
  intro k k0 k1
  have := rd_col (D := ofFn n n (fun i j => if i = row ∧ j < k then (if j = row ∧ col < row then f col col else f j col) else f i j))
    k0 (by simpa using k1) c0 (by simpa using c1)
  simp only [ofFn_rows] at this
  rw [this, get_ofFn k0 k1 c0 c1, ok_bind, put_ofFn _ r0 r1 k0 k1]
  congr 1
  apply ofFn_congr
  intro a b a0 a1 b0 b1
  by_cases hab : a = row ∧ b = k
  · obtain ⟨rfl, rfl⟩ := hab
    rw [if_pos ⟨rfl, rfl⟩, if_pos (c := a = a ∧ b < b + 1) (by omega)]
    by_cases h1 : b = a ∧ col < b
    · rw [if_pos (by omega), if_neg (by omega), if_pos (by omega)]
    · rw [if_neg (by omega)]
      by_cases h2 : b = a ∧ col < a
      · omega
      · rw [if_neg h2]
  · rw [if_neg hab]
    congr 1; apply propext; constructor <;> intro h <;> omega

theorem zipUpdateSelf_eq (f : α → α → α) (D : Dense α) : D.zipUpdateSelf f = Dense.zipUpdate f D D := by
  unfold zipUpdateSelf zipUpdate
  rw [cassert_true rfl, ok_bind, cassert_true rfl, ok_bind, ok_bind, ok_bind]
  by_cases h : 0 ≤ D.rows * D.cols
  · rw [(forUp_congr_inv' D.data h).1]
  · rw [forUp_nil (by omega), forUp_nil (by omega)]

end Dense

/-! ## Products whose result is the dense argument -/

namespace Csr

theorem rowVal [NonUnitalNonAssocSemiring α] {A : Csr α} (hA : A.WF) {i : Int} (i0 : 0 ≤ i) (i1 : i < A.rows) (g : Int → Res α)
    (hg : ∀ e ∈ A.row i, g e.1 = .ok 0) :
    A.forRow i (0 : α) (fun j val => do
        let d ← rd A.data j
        let c ← rd A.indices j
        let x ← g c
        .ok (val + d * x)) = .ok 0 := by
  obtain ⟨n, rs, hn, hrs, rfl⟩ := hA.exists_rows
  obtain ⟨k, rfl⟩ := Int.eq_ofNat_of_zero_le i0
  have hk : k < rs.length := by simpa [Csr.ofRows] using i1
  rw [Csr.row_ofRows n rs k hk] at hg
  rw [Csr.forRow_ofRows n rs k hk (0 : α) _ (fun e s => do
    let x ← g e.1
    .ok (s + e.2 * x)) (by
      intro m hm s
      rw [rd_indices_ofRows n rs k m hk hm, rd_data_ofRows n rs k m hk hm]; rfl)]
  generalize rs[k] = r at hg
  induction r with
  | nil => rfl
  | cons e r ih =>
    rw [List.foldlM_cons, hg e (by simp)]
    simp only [ok_bind, mul_zero, add_zero]
    exact ih (fun e he => hg e (by simp [he]))

theorem rowVal_fails [NonUnitalNonAssocSemiring α] {A : Csr α} (hA : A.WF) {i : Int} (i0 : 0 ≤ i) (i1 : i < A.rows) (g : Int → Res α)
    (hg : ∀ e ∈ A.row i, g e.1 = .ok 0 ∨ g e.1 = .error .assertFail) (hbad : ∃ e ∈ A.row i, g e.1 = .error .assertFail) :
    A.forRow i (0 : α) (fun j val => do
        let d ← rd A.data j
        let c ← rd A.indices j
        let x ← g c
        .ok (val + d * x)) = .error .assertFail := by
  obtain ⟨n, rs, hn, hrs, rfl⟩ := hA.exists_rows
  obtain ⟨k, rfl⟩ := Int.eq_ofNat_of_zero_le i0
  have hk : k < rs.length := by simpa [Csr.ofRows] using i1
  rw [Csr.row_ofRows n rs k hk] at hg hbad
  rw [Csr.forRow_ofRows n rs k hk (0 : α) _ (fun e s => do
    let x ← g e.1
    .ok (s + e.2 * x)) (by
      intro m hm s
      rw [rd_indices_ofRows n rs k m hk hm, rd_data_ofRows n rs k m hk hm]; rfl)]
  generalize rs[k] = r at hg hbad
  induction r with
  | nil => obtain ⟨e, he, _⟩ := hbad; cases he
  | cons e r ih =>
    rw [List.foldlM_cons]
    rcases hg e (by simp) with h | h
    · rw [h]
      simp only [ok_bind, mul_zero, add_zero]
      refine ih (fun e he => hg e (by simp [he])) ?_
      obtain ⟨e', he', h'⟩ := hbad
      rcases List.mem_cons.1 he' with rfl | hm
      · rw [h] at h'; cases h'
      · exact ⟨e', hm, h'⟩
    · rw [h]; rfl

/-- The stored entries of all rows are the stored entries. -/
theorem WF.mem_indices {A : Csr α} (hA : A.WF) {c : Int} : c ∈ A.indices ↔ ∃ i, 0 ≤ i ∧ i < A.rows ∧ ∃ e ∈ A.row i, e.1 = c := by
  obtain ⟨n, rs, hn, hrs, rfl⟩ := hA.exists_rows
  constructor
  · intro h
    simp only [Csr.ofRows, List.mem_map] at h
    obtain ⟨e, he, rfl⟩ := h
    obtain ⟨r, hr, he⟩ := List.mem_flatten.1 he
    obtain ⟨k, hk, rfl⟩ := List.mem_iff_getElem.1 hr
    exact ⟨k, by omega, by simpa [Csr.ofRows] using hk, e, by rw [Csr.row_ofRows n rs k hk]; exact he, rfl⟩
  · rintro ⟨i, i0, i1, e, he, rfl⟩
    obtain ⟨k, rfl⟩ := Int.eq_ofNat_of_zero_le i0
    have hk : k < rs.length := by simpa [Csr.ofRows] using i1
    rw [Csr.row_ofRows n rs k hk] at he
    simp only [Csr.ofRows, List.mem_map]
    exact ⟨e, List.mem_flatten.2 ⟨_, List.getElem_mem hk, he⟩, rfl⟩

end Csr

/-! ## Loops in which the factors are the values being scaled -/

/-- The row and position loops of a scaling function, with the factors taken from the values `d` themselves or from a fixed copy of them. -/
theorem Csr.WF.scaleLoops {A : Csr α} (hA : A.WF) {f g : Int → List α → Res (List α)} {F G : Int → σ → Int → List α → Res (List α)}
    {pf pg : Int → List α → Res σ}
    (hf : f = fun i d => pf i d >>= fun s => A.forRow i d (fun j d => F i s j d))
    (hg : g = fun i d => pg i d >>= fun s => A.forRow i d (fun j d => G i s j d))
    (hp : ∀ i d lo, 0 ≤ i → i < A.rows → rd A.indptr i = .ok lo → SameFrom lo d A.data → pf i d = pg i d)
    (hfg : ∀ i s (j : Int) d, 0 ≤ j → j < A.data.length → SameFrom j d A.data → F i s j d = G i s j d)
    (hG : ∀ i s j d d', G i s j d = .ok d' → ∃ x, wr d j x = .ok d') :
    forUp 0 A.rows A.data f = forUp 0 A.rows A.data g := by
  obtain ⟨n, rs, hn, hrs, rfl⟩ := hA.exists_rows
  have hlen : (Csr.ofRows n rs).data.length = rs.flatten.length := by simp only [Csr.ofRows, List.length_map]
  refine (forUp_congr_inv (fun i d => SameFrom ((rs.take i.toNat).flatten.length : Int) d (Csr.ofRows n rs).data) hA.rows_nonneg
    ⟨rfl, fun _ _ => rfl⟩ ?_ ?_).1
  · intro i d i0 i1 hd
    obtain ⟨k, rfl⟩ := Int.eq_ofNat_of_zero_le i0
    have hk : k < rs.length := by simpa [Csr.ofRows] using i1
    have h1 : rd (Csr.ofRows n rs).indptr (k : Int) = _ := rd_ptrs rs k hk.le
    have h2 : rd (Csr.ofRows n rs).indptr ((k : Int) + 1) = _ := rd_ptrs_succ rs k hk
    rw [hf, hg]
    simp only
    rw [hp k d _ i0 i1 h1 (by simpa using hd)]
    cases pg k d with
    | error e => rfl
    | ok s =>
      simp only [ok_bind]
      unfold Csr.forRow
      rw [h1, h2]
      simp only [ok_bind]
      refine (forUp_congr_inv (fun j d => SameFrom j d (Csr.ofRows n rs).data) (by push_cast; omega) (by simpa using hd) ?_ ?_).1
      · intro j d j0 j1 hd
        refine hfg _ s j d (by omega) ?_ hd
        have : (rs.take k).flatten.length + rs[k].length ≤ rs.flatten.length := by
          rw [← flatten_take_succ_length rs k hk]
          conv_rhs => rw [← List.take_append_drop (k + 1) rs]
          rw [List.flatten_append, List.length_append]; omega
        rw [hlen]; push_cast at j1 ⊢; omega
      · intro j d d' j0 j1 hd hw
        obtain ⟨x, hx⟩ := hG _ _ _ _ _ hw
        exact hd.set hx
  · intro i d d' i0 i1 hd hw
    obtain ⟨k, rfl⟩ := Int.eq_ofNat_of_zero_le i0
    have hk : k < rs.length := by simpa [Csr.ofRows] using i1
    have h1 : rd (Csr.ofRows n rs).indptr (k : Int) = _ := rd_ptrs rs k hk.le
    have h2 : rd (Csr.ofRows n rs).indptr ((k : Int) + 1) = _ := rd_ptrs_succ rs k hk
    rw [hg] at hw
    obtain ⟨s, _, hw⟩ := bind_eq_ok.1 hw
    unfold Csr.forRow at hw
    rw [h1, h2] at hw
    simp only [ok_bind] at hw
    have := (forUp_congr_inv (f := fun j d => G (k : Int) s j d) (g := fun j d => G (k : Int) s j d)
      (fun j d => SameFrom j d (Csr.ofRows n rs).data) (by push_cast; omega) (by simpa using hd) (fun _ _ _ _ _ => rfl) (by
        intro j d d' j0 j1 hd hw
        obtain ⟨x, hx⟩ := hG _ _ _ _ _ hw
        exact hd.set hx)).2 _ hw
    have e := flatten_take_succ_length rs k hk
    have e' : ((k : Int) + 1).toNat = k + 1 := by omega
    simp only [e', e]
    exact this

end Linalg
