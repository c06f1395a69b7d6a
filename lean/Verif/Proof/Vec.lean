import Verif.Spec.Vec
import Verif.Proof.Dense
import Verif.Proof.Sums

/-! # Vectors as functions: helper lemmas -/

namespace Linalg
open Cpp

variable {α R : Type}

/-- The vector of size `n` with elements `f`. -/
def vecFn (n : Nat) (f : Int → α) : List α := (List.range n).map (fun k : Nat => f (k : Int))

@[simp] theorem length_vecFn (n : Nat) (f : Int → α) : (vecFn n f).length = n := by simp [vecFn]

theorem rd_vecFn {n : Nat} {f : Int → α} {i : Int} (h0 : 0 ≤ i) (h1 : i < n) :
    rd (vecFn n f) i = .ok (f i) := by
  obtain ⟨k, rfl⟩ : ∃ k : Nat, i = k := ⟨i.toNat, by omega⟩
  rw [rd_nat (by simp; omega)]
  simp [vecFn]

theorem vrd_vecFn {n : Nat} {f : Int → α} {i : Int} (h0 : 0 ≤ i) (h1 : i < n) :
    vrd (vecFn n f) i = .ok (f i) := by
  unfold vrd
  rw [cassert_true (by simpa using h1), ok_bind, rd_vecFn h0 h1]

theorem vecFn_congr {n : Nat} {f g : Int → α} (h : ∀ i, 0 ≤ i → i < (n : Int) → f i = g i) :
    vecFn n f = vecFn n g := by
  unfold vecFn
  apply List.map_congr_left
  intro k hk
  have := List.mem_range.mp hk
  exact h k (by omega) (by omega)

theorem wr_vecFn {n : Nat} {f : Int → α} {i : Int} (x : α) (h0 : 0 ≤ i) (h1 : i < n) :
    wr (vecFn n f) i x = .ok (vecFn n (fun a => if a = i then x else f a)) := by
  obtain ⟨k, rfl⟩ : ∃ k : Nat, i = k := ⟨i.toNat, by omega⟩
  rw [wr_nat (by simp; omega)]
  congr 1
  apply List.ext_getElem
  · simp
  · intro j h1 h2
    rw [List.getElem_set]
    simp only [vecFn, List.getElem_map, List.getElem_range]
    by_cases h : k = j
    · subst h; simp
    · rw [if_neg h, if_neg (by omega)]

theorem vwr_vecFn {n : Nat} {f : Int → α} {i : Int} (x : α) (h0 : 0 ≤ i) (h1 : i < n) :
    vwr (vecFn n f) i x = .ok (vecFn n (fun a => if a = i then x else f a)) := by
  unfold vwr
  rw [cassert_true (by simpa using h1), ok_bind, wr_vecFn x h0 h1]

theorem is_vecFn (n : Nat) (f : Int → α) : VecIs (vecFn n f) n f :=
  ⟨by simp, fun _ h0 h1 => rd_vecFn h0 h1⟩

theorem VecIs.congr {y : List α} {n : Int} {f g : Int → α} (h : VecIs y n f)
    (hfg : ∀ i, 0 ≤ i → i < n → f i = g i) : VecIs y n g :=
  ⟨h.length_eq, fun i h0 h1 => by rw [h.get_eq i h0 h1, hfg i h0 h1]⟩

theorem VecIs.eq_vecFn {y : List α} {n : Nat} {f : Int → α} (h : VecIs y n f) : y = vecFn n f := by
  have hl : y.length = n := by exact_mod_cast h.length_eq
  apply List.ext_getElem
  · simp [hl]
  · intro k h1 h2
    have := h.get_eq k (by omega) (by omega)
    rw [rd_nat h1] at this
    simp only [Except.ok.injEq] at this
    rw [this]
    simp [vecFn]

theorem VecIs.unique {y z : List α} {n : Int} {f : Int → α} (h : VecIs y n f) (h' : VecIs z n f) : y = z := by
  have := h.length_eq
  obtain ⟨n, rfl⟩ : ∃ k : Nat, n = k := ⟨n.toNat, by omega⟩
  rw [h.eq_vecFn, h'.eq_vecFn]

theorem vecIs_vecAt [Zero R] (x : List R) : VecIs x x.length (vecAt x) :=
  ⟨rfl, fun _ h0 h1 => rd_vecAt x h0 h1⟩

theorem eq_vecFn_vecAt [Zero R] (x : List R) : x = vecFn x.length (vecAt x) := (vecIs_vecAt x).eq_vecFn

theorem VecIs.vecAt_eq [Zero R] {y : List R} {n : Int} {f : Int → R} (h : VecIs y n f) {i : Int}
    (h0 : 0 ≤ i) (h1 : i < n) : vecAt y i = f i := by
  have := h.get_eq i h0 h1
  have hl := h.length_eq
  rw [rd_vecAt y h0 (by omega)] at this
  exact Except.ok.inj this

theorem replicate_vecFn (n : Nat) (x : α) : List.replicate n x = vecFn n (fun _ => x) := by
  unfold vecFn; rw [List.map_const', List.length_range]

/-- A loop that overwrites each element once. -/
theorem fillLoop {n : Nat} (f g : Int → α) (body : Int → List α → Res (List α))
    (hb : ∀ (i : Int) h, 0 ≤ i → i < n → h i = f i → body i (vecFn n h) = wr (vecFn n h) i (g i)) :
    forUp 0 (n : Int) (vecFn n f) body = .ok (vecFn n g) := by
  have e0 : vecFn n f = vecFn n (fun a => if a < 0 then g a else f a) :=
    vecFn_congr (fun i h0 h1 => by rw [if_neg (by omega)])
  have e1 : vecFn n g = vecFn n (fun a => if a < (n : Int) then g a else f a) :=
    vecFn_congr (fun i h0 h1 => by rw [if_pos (by omega)])
  rw [e0, e1]
  refine forUp_seq (by omega) (fun i => vecFn n (fun a => if a < i then g a else f a)) ?_
  intro i h0 h1
  rw [hb i _ h0 h1 (by rw [if_neg (by omega)]), wr_vecFn _ h0 h1]
  congr 1
  apply vecFn_congr
  intro a _ _
  by_cases h : a = i
  · rw [if_pos h, if_pos (by omega), h]
  · rw [if_neg h]; congr 1; apply propext; omega

/-- The same, for a body that is known to return the vector with element `i` replaced. -/
theorem fillLoop' {n : Nat} (f g : Int → α) (body : Int → List α → Res (List α))
    (hb : ∀ (i : Int) h, 0 ≤ i → i < n → h i = f i →
      body i (vecFn n h) = .ok (vecFn n (fun a => if a = i then g i else h a))) :
    forUp 0 (n : Int) (vecFn n f) body = .ok (vecFn n g) := by
  apply fillLoop
  intro i h h0 h1 hh
  rw [hb i h h0 h1 hh, wr_vecFn _ h0 h1]

theorem vwr_eq_wr {y : List α} {i : Int} {x : α} (h : i < y.length) : vwr y i x = wr y i x := by
  unfold vwr; rw [cassert_true h, ok_bind]

theorem vrd_eq_rd {y : List α} {i : Int} (h : i < y.length) : vrd y i = rd y i := by
  unfold vrd; rw [cassert_true h, ok_bind]

theorem sum_Ico_zero [AddCommMonoid R] (f : Int → R) : ∑ k ∈ Finset.Ico (0 : Int) 0, f k = 0 := by simp

theorem sum_Ico_succ [AddCommMonoid R] (f : Int → R) {j : Int} (h : 0 ≤ j) :
    ∑ k ∈ Finset.Ico (0 : Int) (j + 1), f k = ∑ k ∈ Finset.Ico (0 : Int) j, f k + f j := by
  have e : Finset.Ico (0 : Int) (j + 1) = insert j (Finset.Ico 0 j) := by
    ext x; simp only [Finset.mem_Ico, Finset.mem_insert]; omega
  rw [e, Finset.sum_insert (by simp), add_comm]

theorem sum_Ico_add [AddCommMonoid R] (f : Int → R) {a n : Int} (ha : 0 ≤ a) (hn : 0 ≤ n) :
    ∑ k ∈ Finset.Ico (0 : Int) (a + n), f k
      = ∑ k ∈ Finset.Ico (0 : Int) a, f k + ∑ k ∈ Finset.Ico (0 : Int) n, f (a + k) := by
  obtain ⟨n, rfl⟩ := Int.eq_ofNat_of_zero_le hn
  induction n with
  | zero => simp
  | succ n ih =>
    push_cast
    rw [← add_assoc, sum_Ico_succ f (by omega), sum_Ico_succ (fun k => f (a + k)) (by omega), ih (by omega), add_assoc]

/-- An accumulation loop is a sum. -/
theorem sumLoop [AddCommMonoid R] {n : Int} (hn : 0 ≤ n) (g : Int → R) (body : Int → R → Res R) (c : R)
    (hb : ∀ (i : Int) v, 0 ≤ i → i < n → body i v = .ok (v + g i)) :
    forUp 0 n c body = .ok (c + ∑ i ∈ Finset.Ico 0 n, g i) := by
  have e : c = c + ∑ i ∈ Finset.Ico (0 : Int) 0, g i := by simp
  rw (occs := .pos [1]) [e]
  refine forUp_seq hn (fun k => c + ∑ i ∈ Finset.Ico 0 k, g i) ?_
  intro k h0 h1
  rw [hb k _ h0 h1, sum_Ico_succ g h0, add_assoc]

theorem mapM_ok {β γ : Type} (l : List β) (f : β → Res γ) (g : β → γ) (h : ∀ b ∈ l, f b = .ok (g b)) :
    l.mapM f = .ok (l.map g) := by
  induction l with
  | nil => rfl
  | cons b l ih =>
    rw [List.mapM_cons, h b (by simp), ok_bind, ih (fun x hx => h x (by simp [hx])), ok_bind]
    rfl

theorem vecFn_iota (n : Nat) (f : Int → α) : vecFn n f = (iota n).map f := by
  simp [vecFn, iota]

end Linalg
