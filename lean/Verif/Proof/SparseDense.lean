import Verif.Proof.Dense
import Verif.Proof.Transpose

/-! # Sparse loops writing into dense matrices: helper lemmas -/

namespace Linalg
open Cpp

variable {α R : Type}

/-- Overwriting entries in sequence. -/
def putAll (ts : List (Int × Int × α)) (f : Int → Int → α) : Int → Int → α :=
  ts.foldl (fun f t => fun a b => if a = t.1 ∧ b = t.2.1 then t.2.2 else f a b) f

theorem putAll_eq (ts : List (Int × Int × α)) (f : Int → Int → α) (a b : Int) :
    putAll ts f a b
      = ((ts.filter (fun t => t.1 = a ∧ t.2.1 = b)).map (fun t => t.2.2)).getLastD (f a b) := by
  induction ts generalizing f with
  | nil => rfl
  | cons t ts ih =>
    have : putAll (t :: ts) f = putAll ts (fun a b => if a = t.1 ∧ b = t.2.1 then t.2.2 else f a b) := rfl
    rw [this, ih]
    by_cases h : t.1 = a ∧ t.2.1 = b
    · rw [List.filter_cons_of_pos (by simpa using h), List.map_cons, List.getLastD_cons,
        if_pos ⟨h.1.symm, h.2.symm⟩]
    · rw [List.filter_cons_of_neg (by simpa using h), if_neg (fun e => h ⟨e.1.symm, e.2.symm⟩)]

theorem foldlM_put {m n : Nat} (ts : List (Int × Int × α)) (f : Int → Int → α)
    (h : ∀ t ∈ ts, (0 ≤ t.1 ∧ t.1 < (m : Int)) ∧ 0 ≤ t.2.1 ∧ t.2.1 < (n : Int)) :
    ts.foldlM (fun D t => D.put t.1 t.2.1 t.2.2) (Dense.ofFn m n f)
      = .ok (Dense.ofFn m n (putAll ts f)) := by
  induction ts generalizing f with
  | nil => rfl
  | cons t ts ih =>
    have ht := h t (by simp)
    rw [List.foldlM_cons, Dense.put_ofFn _ ht.1.1 ht.1.2 ht.2.1 ht.2.2, ok_bind,
      ih _ (fun x hx => h x (by simp [hx]))]
    rfl

theorem filter_triplesL2 (rs : List (List (Int × α))) (k : Nat) (hk : k < rs.length) (b : Int) :
    ((triplesL rs).filter (fun t => t.1 = (k : Int) ∧ t.2.1 = b)).map (fun t => t.2.2)
      = ((rs[k].filter (fun e => e.1 = b)).map Prod.snd) := by
  rw [← filter_triplesL rs k hk, List.filter_map, List.map_map, List.filter_filter]
  congr 1
  apply List.filter_congr
  intro t _
  simp [Bool.and_comm]

/-- Adding to entries in sequence. -/
theorem foldlM_add [AddMonoid R] {m n : Nat} (ts : List (Int × Int × R)) (f : Int → Int → R)
    (h : ∀ t ∈ ts, (0 ≤ t.1 ∧ t.1 < (m : Int)) ∧ 0 ≤ t.2.1 ∧ t.2.1 < (n : Int)) :
    ts.foldlM (fun D t => do
        let old ← D.get t.1 t.2.1
        D.put t.1 t.2.1 (old + t.2.2)) (Dense.ofFn m n f)
      = .ok (Dense.ofFn m n (fun a b => f a b +
          ((ts.filter (fun t => t.1 = a ∧ t.2.1 = b)).map (fun t => t.2.2)).sum)) := by
  induction ts generalizing f with
  | nil => simp
  | cons t ts ih =>
    have ht := h t (by simp)
    rw [List.foldlM_cons, Dense.get_ofFn ht.1.1 ht.1.2 ht.2.1 ht.2.2, ok_bind,
      Dense.put_ofFn _ ht.1.1 ht.1.2 ht.2.1 ht.2.2, ok_bind,
      ih _ (fun x hx => h x (by simp [hx]))]
    congr 1
    apply Dense.ofFn_congr
    intro a b _ _ _ _
    by_cases hab : t.1 = a ∧ t.2.1 = b
    · rw [List.filter_cons_of_pos (by simpa using hab), List.map_cons, List.sum_cons,
        if_pos ⟨hab.1.symm, hab.2.symm⟩, ← add_assoc, hab.1, hab.2]
    · rw [List.filter_cons_of_neg (by simpa using hab), if_neg (fun e => hab ⟨e.1.symm, e.2.symm⟩)]

/-- The inner loop of the products: `Σ` over one row. -/
theorem rowDot_ofRows [NonUnitalNonAssocSemiring R] {n : Int} {rs : List (List (Int × R))}
    (hrs : ∀ r ∈ rs, ∀ e ∈ r, 0 ≤ e.1 ∧ e.1 < n) (k : Nat) (hk : k < rs.length)
    (rdx : Int → Res R) (g : Int → R) (hg : ∀ c, 0 ≤ c → c < n → rdx c = .ok (g c)) :
    (Csr.ofRows n rs).forRow (k : Int) (0 : R) (fun j val => do
        let d ← rd (Csr.ofRows n rs).data j
        let c ← rd (Csr.ofRows n rs).indices j
        let x ← rdx c
        .ok (val + d * x))
      = .ok (∑ j ∈ Finset.Ico 0 n, (Csr.ofRows n rs).coef (k : Int) j * g j) := by
  have hr := hrs rs[k] (List.getElem_mem hk)
  rw [Csr.forRow_ofRows n rs k hk _ _ (fun e val => do
      let x ← rdx e.1
      .ok (val + e.2 * x))]
  · have := (foldlM_eq_foldl (l := rs[k])
      (f := fun (val : R) e => (do
        let x ← rdx e.1
        .ok (val + e.2 * x) : Res R))
      (g := fun val e => val + e.2 * g e.1) (fun _ => True) (s := (0 : R)) trivial
      (fun e he s _ => ⟨by rw [hg e.1 (hr e he).1 (hr e he).2]; rfl, trivial⟩)).1
    rw [this, foldl_add_eq (fun e : Int × R => e.2 * g e.1), zero_add]
    congr 1
    rw [sum_row_eq hr g]
    apply Finset.sum_congr rfl
    intro j _
    rw [coef_ofRows n rs k hk]
  · intro m hm s
    rw [rd_data_ofRows n rs k m hk hm, rd_indices_ofRows n rs k m hk hm]
    rfl

/-- One column of the scatter product. -/
theorem foldlM_scatter_col [NonUnitalNonAssocSemiring R] {M K : Nat} (ts : List (Int × Int × R))
    (x : Int → R) (k : Int) (hk0 : 0 ≤ k) (hk1 : k < K) (f : Int → Int → R)
    (h : ∀ t ∈ ts, 0 ≤ t.2.1 ∧ t.2.1 < (M : Int)) :
    ts.foldlM (fun D t => do
        let old ← D.get t.2.1 k
        D.put t.2.1 k (old + t.2.2 * x t.1)) (Dense.ofFn M K f)
      = .ok (Dense.ofFn M K (fun a b => if b = k then f a b +
          rowCoef (ts.map (fun t => (t.2.1, t.2.2 * x t.1))) a else f a b)) := by
  induction ts generalizing f with
  | nil => simp [rowCoef]
  | cons t ts ih =>
    have ht := h t (by simp)
    rw [List.foldlM_cons, Dense.get_ofFn ht.1 ht.2 hk0 hk1, ok_bind,
      Dense.put_ofFn _ ht.1 ht.2 hk0 hk1, ok_bind, ih _ (fun x hx => h x (by simp [hx]))]
    congr 1
    apply Dense.ofFn_congr
    intro a b _ _ _ _
    by_cases hb : b = k
    · simp only [hb, and_true, if_true, List.map_cons, rowCoef_cons]
      by_cases ha : a = t.2.1
      · rw [if_pos ha, if_pos ha.symm, ← add_assoc, ha]
      · rw [if_neg ha, if_neg (Ne.symm ha), zero_add]
    · simp [hb]

end Linalg
