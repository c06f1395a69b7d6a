import Verif.Proof.Csr
import Mathlib.Algebra.BigOperators.Ring.Finset
import Mathlib.Algebra.BigOperators.Group.Finset.Sigma
import Mathlib.Tactic.Abel

/-! # Sums over stored entries: helper lemmas -/

namespace Linalg
open Cpp

variable {α β σ R : Type}

/-- Sum of the values stored with column `j`. -/
def rowCoef [AddMonoid R] (r : List (Int × R)) (j : Int) : R :=
  ((r.filter (fun e => e.1 = j)).map Prod.snd).sum

@[simp] theorem rowCoef_nil [AddMonoid R] (j : Int) : rowCoef ([] : List (Int × R)) j = 0 := rfl

theorem rowCoef_cons [AddMonoid R] (e : Int × R) (r : List (Int × R)) (j : Int) :
    rowCoef (e :: r) j = (if e.1 = j then e.2 else 0) + rowCoef r j := by
  unfold rowCoef
  by_cases h : e.1 = j <;> simp [h]

theorem rowCoef_append [AddMonoid R] (r s : List (Int × R)) (j : Int) :
    rowCoef (r ++ s) j = rowCoef r j + rowCoef s j := by
  simp [rowCoef]

theorem rowCoef_perm [AddCommMonoid R] {r s : List (Int × R)} (h : r.Perm s) (j : Int) :
    rowCoef r j = rowCoef s j := by
  unfold rowCoef
  exact ((h.filter _).map _).sum_eq

theorem Csr.coef_eq [AddMonoid R] (A : Csr R) (i j : Int) : A.coef i j = rowCoef (A.row i) j := rfl

theorem rowCoef_eq_zero [AddMonoid R] {r : List (Int × R)} {j : Int} (h : ∀ e ∈ r, e.1 ≠ j) :
    rowCoef r j = 0 := by
  induction r with
  | nil => rfl
  | cons e r ih =>
    rw [rowCoef_cons, if_neg (h e (by simp)), ih (fun x hx => h x (by simp [hx])), add_zero]

theorem foldl_add_eq [AddMonoid R] (g : β → R) (l : List β) (a : R) :
    l.foldl (fun v e => v + g e) a = a + (l.map g).sum := by
  induction l generalizing a with
  | nil => simp
  | cons x l ih => simp [ih, add_assoc]

theorem sum_row_eq [NonUnitalNonAssocSemiring R] {n : Int} {r : List (Int × R)}
    (h : ∀ e ∈ r, 0 ≤ e.1 ∧ e.1 < n) (f : Int → R) :
    (r.map (fun e => e.2 * f e.1)).sum = ∑ j ∈ Finset.Ico 0 n, rowCoef r j * f j := by
  induction r with
  | nil => simp
  | cons e r ih =>
    have he := h e (by simp)
    simp only [List.map_cons, List.sum_cons, rowCoef_cons, add_mul, Finset.sum_add_distrib]
    rw [ih (fun x hx => h x (by simp [hx]))]
    congr 1
    simp only [ite_mul, zero_mul]
    rw [Finset.sum_ite_eq]
    simp [he]

theorem vecAt_nat [Zero R] (x : List R) (k : Nat) (h : k < x.length) : vecAt x (k : Int) = x[k] := by
  simp [vecAt, h]

theorem vecAt_int [Zero R] (x : List R) {c : Int} (h0 : 0 ≤ c) (h : c < x.length) :
    vecAt x c = x[c.toNat]'(by omega) := by
  simp only [vecAt, h0, if_true]
  rw [List.getD_eq_getElem?_getD, List.getElem?_eq_getElem (by omega)]; rfl

theorem vrd_vecAt [Zero R] (x : List R) {c : Int} (h0 : 0 ≤ c) (h : c < x.length) :
    vrd x c = .ok (vecAt x c) := by
  rw [vrd_int h0 h, vecAt_int x h0 h]

theorem rd_vecAt [Zero R] (x : List R) {c : Int} (h0 : 0 ≤ c) (h : c < x.length) :
    rd x c = .ok (vecAt x c) := by
  rw [rd_int h0 h, vecAt_int x h0 h]

/-- A loop that writes element `i` in iteration `i`, for all `i`, builds the list of written values. -/
theorem forUp_build {n : Nat} {out : List α} (hlen : out.length = n) {body : Int → List α → Res (List α)}
    (g : Nat → α)
    (h : ∀ i < n, ∀ out' : List α, out'.length = n → body (i : Int) out' = .ok (out'.set i (g i))) :
    forUp 0 (n : Int) out body = .ok ((List.range n).map g) := by
  obtain ⟨s, h1, h2, h3⟩ := forUp_inv_nat (n := n) (f := body)
    (fun i (o : List α) => o.length = n ∧ ∀ k < i, o[k]? = some (g k)) (s := out)
    ⟨hlen, by intro k hk; omega⟩ (by
      intro i o hi ⟨hl, hk⟩
      refine ⟨_, h i hi o hl, by simp [hl], ?_⟩
      intro k hk'
      rw [List.getElem?_set]
      by_cases e : i = k
      · subst e; simp [hl, hi]
      · rw [if_neg e]; exact hk k (by omega))
  rw [h1]
  congr 1
  apply List.ext_getElem?
  intro k
  by_cases hk : k < n
  · rw [h3 k hk]; simp [hk]
  · rw [List.getElem?_eq_none (by omega), List.getElem?_eq_none (by simp; omega)]

/-- Scatter-add: adding increments at positions accumulates, at each position, the sum of its increments. -/
theorem scatter_add [AddMonoid R] (l : List (Int × R)) (out : List R)
    (h : ∀ e ∈ l, 0 ≤ e.1 ∧ e.1 < out.length) :
    ∃ out', l.foldlM (fun (out : List R) (e : Int × R) => do
        let old ← vrd out e.1
        vwr out e.1 (old + e.2)) out = (.ok out' : Res (List R)) ∧ out'.length = out.length ∧
      ∀ k < out.length, ∃ a, out[k]? = some a ∧ out'[k]? = some (a + rowCoef l (k : Int)) := by
  induction l generalizing out with
  | nil =>
    refine ⟨out, rfl, rfl, ?_⟩
    intro k hk
    exact ⟨out[k], List.getElem?_eq_getElem hk, by simp [List.getElem?_eq_getElem hk]⟩
  | cons e l ih =>
    have he := h e (by simp)
    rw [List.foldlM_cons, vrd_int he.1 he.2]
    simp only [ok_bind]
    rw [vwr_int he.1 he.2]
    simp only [ok_bind]
    obtain ⟨out', h1, h2, h3⟩ := ih (out.set e.1.toNat (out[e.1.toNat]'(by omega) + e.2))
      (fun x hx => by simpa using h x (by simp [hx]))
    refine ⟨out', h1, by simpa using h2, ?_⟩
    intro k hk
    obtain ⟨a, ha1, ha2⟩ := h3 k (by simpa using hk)
    rw [List.getElem?_set] at ha1
    rw [rowCoef_cons]
    by_cases hek : e.1 = (k : Int)
    · have : e.1.toNat = k := by omega
      rw [if_pos this, if_pos (by omega)] at ha1
      refine ⟨out[k], List.getElem?_eq_getElem hk, ?_⟩
      rw [ha2, if_pos hek]
      have hak : out[e.1.toNat]'(by omega) = out[k] := by simp only [this]
      rw [hak] at ha1
      rw [← Option.some.inj ha1, add_assoc]
    · rw [if_neg (by omega)] at ha1
      exact ⟨a, ha1, by rw [ha2, if_neg hek, zero_add]⟩

/-! ## Coefficients of matrices built from rows -/

theorem coef_ofRows [AddMonoid R] (n : Int) (rs : List (List (Int × R))) (k : Nat) (h : k < rs.length)
    (j : Int) : (Csr.ofRows n rs).coef (k : Int) j = rowCoef rs[k] j := by
  rw [Csr.coef_eq, Csr.row_ofRows n rs k h]

theorem Csr.coef_of_not_row [AddMonoid R] {A : Csr R} (hA : A.WF) {i j : Int}
    (h : ¬ (0 ≤ i ∧ i < A.rows)) : A.coef i j = 0 := by
  rw [Csr.coef_eq]
  apply rowCoef_eq_zero
  intro e he
  exact absurd ⟨(Csr.mem_row_ok hA he).1, (Csr.mem_row_ok hA he).2.1⟩ h

theorem Csr.coef_of_not_col [AddMonoid R] {A : Csr R} (hA : A.WF) {i j : Int}
    (h : ¬ (0 ≤ j ∧ j < A.cols)) : A.coef i j = 0 := by
  rw [Csr.coef_eq]
  apply rowCoef_eq_zero
  intro e he hj
  have := Csr.mem_row_ok hA he
  rw [hj] at this
  exact h ⟨this.2.2.1, this.2.2.2⟩

/-! ## Vector products on rows -/

theorem mult_ofRows [NonUnitalNonAssocSemiring R] {n : Int} {rs : List (List (Int × R))}
    (h : ∀ r ∈ rs, ∀ e ∈ r, 0 ≤ e.1 ∧ e.1 < n) (x y : List R)
    (hx : (x.length : Int) = n) (hy : y.length = rs.length) :
    (Csr.ofRows n rs).mult x y
      = .ok ((List.range rs.length).map (fun i => ∑ j ∈ Finset.Ico 0 n,
          rowCoef (rs.getD i []) j * vecAt x j)) := by
  unfold Csr.mult
  rw [cassert_true (by exact hx), cassert_true (by simpa [Csr.ofRows] using hy)]
  simp only [ok_bind]
  apply forUp_build hy
  intro i hi out ho
  rw [Csr.forRow_ofRows n rs i hi _ _ (fun e val => .ok (val + e.2 * vecAt x e.1))]
  · have := (foldlM_eq_foldl (l := rs[i]) (f := fun (val : R) e => (.ok (val + e.2 * vecAt x e.1) : Res R))
      (g := fun val e => val + e.2 * vecAt x e.1) (fun _ => True) (s := (0 : R)) trivial
      (fun _ _ _ _ => ⟨rfl, trivial⟩)).1
    rw [this]
    simp only [ok_bind]
    rw [vwr_nat (by omega), foldl_add_eq, zero_add, sum_row_eq (h _ (List.getElem_mem hi))]
    simp [hi]
  · intro m hm s
    rw [rd_data_ofRows n rs i m hi hm, rd_indices_ofRows n rs i m hi hm]
    simp only [ok_bind]
    have := h _ (List.getElem_mem hi) _ (List.getElem_mem hm)
    rw [vrd_vecAt x this.1 (by omega)]
    rfl

/-- All stored entries as (row, column, value), in storage order. -/
def triplesL (rs : List (List (Int × α))) : List (Int × Int × α) :=
  (rs.zipIdx.map (fun p => p.1.map (fun e => ((p.2 : Int), e.1, e.2)))).flatten

theorem foldlM_range_rows (rs : List β) (s : σ) (f : Int → β → σ → Res σ) :
    forUp 0 (rs.length : Int) s (fun i s => match rs[i.toNat]? with
      | some r => f i r s
      | none => .ok s)
      = rs.zipIdx.foldlM (fun s p => f (p.2 : Int) p.1 s) s := by
  rw [forUp_zero_eq_foldlM, List.zipIdx_eq_zip_range']
  have : List.range' 0 rs.length = List.range rs.length := (List.range_eq_range').symm
  rw [this]
  suffices H : ∀ (l : List Nat) (s : σ), (∀ k ∈ l, k < rs.length) →
      l.foldlM (fun s (k : Nat) => match rs[(k : Int).toNat]? with
        | some r => f (k : Int) r s
        | none => .ok s) s
      = (l.map (fun k => (rs[k]?, k))).foldlM (fun s p => match p.1 with
        | some r => f (p.2 : Int) r s
        | none => .ok s) s by
    rw [H _ s (by simp)]
    have e : (List.range rs.length).map (fun k => (rs[k]?, k))
        = (rs.zip (List.range rs.length)).map (fun p => (some p.1, p.2)) := by
      apply List.ext_getElem
      · simp
      · intro k h1 h2
        simp at h1
        simp [h1]
    rw [e, List.foldlM_map]
  intro l s hl
  rw [List.foldlM_map]
  rfl

/-- The double loop over rows and stored entries, with a body depending only on the entry, is a fold over
the stored triples. -/
theorem rowLoop_ofRows (n : Int) (rs : List (List (Int × α))) (s : σ) (f : Int → Int → σ → Res σ)
    (g : Int → Int × α → σ → Res σ)
    (hf : ∀ (k m : Nat) (hk : k < rs.length) (hm : m < rs[k].length) s,
      f (k : Int) (((rs.take k).flatten.length + m : Nat) : Int) s = g (k : Int) rs[k][m] s) :
    forUp 0 (Csr.ofRows n rs).rows s (fun i s => (Csr.ofRows n rs).forRow i s (fun j s => f i j s))
      = (triplesL rs).foldlM (fun s t => g t.1 t.2 s) s := by
  have h1 : (Csr.ofRows n rs).rows = (rs.length : Int) := rfl
  rw [h1, triplesL, foldlM_flatten, List.foldlM_map]
  have h2 := foldlM_range_rows rs s (fun i r s => r.foldlM (fun s e => g i e s) s)
  simp only [List.foldlM_map]
  rw [← h2]
  apply forUp_congr
  intro i s h0 hi
  obtain ⟨k, rfl⟩ : ∃ k : Nat, i = (k : Int) := ⟨i.toNat, by omega⟩
  have hk : k < rs.length := by exact_mod_cast hi
  rw [Csr.forRow_ofRows n rs k hk s _ (fun e s => g (k : Int) e s) (fun m hm s => hf k m hk hm s)]
  simp [hk]

theorem mem_triplesL {rs : List (List (Int × α))} {t : Int × Int × α} :
    t ∈ triplesL rs ↔ ∃ (k : Nat) (hk : k < rs.length), t.1 = (k : Int) ∧ t.2 ∈ rs[k] := by
  unfold triplesL
  simp only [List.mem_flatten, List.mem_map, Prod.exists]
  constructor
  · rintro ⟨l, ⟨r, k, hrk, rfl⟩, ht⟩
    rw [List.mem_map] at ht
    obtain ⟨e, he, rfl⟩ := ht
    rw [List.mem_zipIdx_iff_getElem?] at hrk
    simp only at hrk
    obtain ⟨hk, hr⟩ := List.getElem?_eq_some_iff.mp hrk
    exact ⟨k, hk, rfl, by rw [hr]; exact he⟩
  · rintro ⟨k, hk, h1, h2⟩
    refine ⟨_, ⟨rs[k], k, ?_, rfl⟩, ?_⟩
    · rw [List.mem_zipIdx_iff_getElem?]; simp [hk]
    · rw [List.mem_map]
      refine ⟨t.2, h2, ?_⟩
      rw [← h1]

end Linalg
