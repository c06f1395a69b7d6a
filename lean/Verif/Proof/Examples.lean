import Verif.Proof.Dense
import Verif.Proof.Vec
import Verif.Proof.Solvers
import Verif.Model.Examples
import Mathlib.Tactic.FieldSimp

/-!
# Lemmas on the example factorisations
-/

namespace Linalg
open Cpp

section Loops
variable {σ : Type}

/-- A loop that returns preserves what every pass that returns preserves. -/
theorem forUp_ok {a b : Int} (hab : a ≤ b) {f : Int → σ → Res σ} (I : Int → σ → Prop) {s s' : σ} (h0 : I a s)
    (hstep : ∀ i s s', a ≤ i → i < b → I i s → f i s = .ok s' → I (i + 1) s') (h : forUp a b s f = .ok s') : I b s' := by
  obtain ⟨n, hn⟩ : ∃ n : Nat, b = a + n := ⟨(b - a).toNat, by omega⟩
  induction n generalizing a s with
  | zero =>
    obtain rfl : a = b := by omega
    rw [forUp_nil (le_refl _)] at h
    injection h with h
    exact h ▸ h0
  | succ n ih =>
    rw [forUp_cons (by omega)] at h
    obtain ⟨s1, h1, h2⟩ := bind_eq_ok.mp h
    exact ih (by omega) (hstep a s s1 (le_refl _) (by omega) h0 h1)
      (fun i s s' hi => hstep i s s' (by omega)) h2 (by omega)

/-- As `forUp_seq`, from any start. -/
theorem forUp_seq' {a b : Int} (hab : a ≤ b) {body : Int → σ → Res σ} (S : Int → σ)
    (h : ∀ j, a ≤ j → j < b → body j (S j) = .ok (S (j + 1))) : forUp a b (S a) body = .ok (S b) := by
  obtain ⟨s', h1, h2⟩ := forUp_inv (a := a) (b := b) hab (f := body) (fun j s => s = S j) (s := S a) rfl (by
    rintro i s h0 h1 rfl
    exact ⟨_, h i h0 h1, rfl⟩)
  rw [h1, h2]

/-- A summation loop from any start. -/
theorem sumLoop' {R : Type} [AddCommMonoid R] {a b : Int} (hab : a ≤ b) (g : Int → R) (body : Int → R → Res R) (c : R)
    (hb : ∀ (i : Int) v, a ≤ i → i < b → body i v = .ok (v + g i)) :
    forUp a b c body = .ok (c + ∑ i ∈ Finset.Ico a b, g i) := by
  have e : c = c + ∑ i ∈ Finset.Ico a a, g i := by simp
  conv_lhs => rw [e]
  refine forUp_seq' hab (fun k => c + ∑ i ∈ Finset.Ico a k, g i) ?_
  intro j h0 h1
  rw [hb j _ h0 h1]
  congr 1
  have e : Finset.Ico a (j + 1) = insert j (Finset.Ico a j) := by
    ext x; simp only [Finset.mem_Ico, Finset.mem_insert]; omega
  rw [e, Finset.sum_insert (by simp), add_comm (g j), add_assoc]

/-- A summation loop that counts down. -/
theorem sumDown {R : Type} [AddCommMonoid R] {n : Int} (hn : 0 ≤ n) (g : Int → R) (body : Int → R → Res R) (c : R)
    (hb : ∀ (i : Int) v, 0 ≤ i → i < n → body i v = .ok (v + g i)) :
    forDown (n - 1) (-1) c body = .ok (c + ∑ i ∈ Finset.Ico 0 n, g i) := by
  unfold forDown
  rw [sumLoop' (by omega) (fun k => g (n - 1 - k)) _ c (fun i v h0 h1 => hb _ v (by omega) (by omega))]
  congr 2
  apply Finset.sum_bij' (fun k _ => n - 1 - k) (fun k _ => n - 1 - k)
  · intro k hk; have := Finset.mem_Ico.mp hk; exact Finset.mem_Ico.mpr (by omega)
  · intro k hk; have := Finset.mem_Ico.mp hk; exact Finset.mem_Ico.mpr (by omega)
  · intro k hk; omega
  · intro k hk; omega
  · intro k hk; rfl

end Loops

namespace Example

section AnyOperations
variable {K : Type} [Zero K] [One K] [Sub K] [Mul K] [Div K] [DecidableEq K]

/-- `U` after pass `i`. -/
def nextU (i : Int) (u : Int → Int → K) : Int → Int → K := fun r c =>
  if i < r ∧ i ≤ c then u r c - u r i / u i i * u i c else u r c

/-- `L` after pass `i`. -/
def nextL (i : Int) (l u : Int → Int → K) : Int → Int → K := fun r c =>
  if c = i then (if r = i then 1 else if i < r then u r i / u i i else l r c) else l r c

omit [Zero K] [One K] [Div K] [DecidableEq K] in
theorem luRow_eq {n : Nat} {i j : Int} (hi : 0 ≤ i) (hi' : i < n) (hj : 0 ≤ j) (hj' : j < n) (hij : i ≠ j) (x : K)
    (u : Int → Int → K) : luRow n i j x (Dense.ofFn n n u)
      = .ok (Dense.ofFn n n (fun r c => if r = j ∧ i ≤ c then u r c - x * u i c else u r c)) := by
  unfold luRow
  have e0 : Dense.ofFn n n u = Dense.ofFn n n (fun r c => if r = j ∧ i ≤ c ∧ c < i then u r c - x * u i c else u r c) := by
    apply Dense.ofFn_congr
    intro r c _ _ _ _
    rw [if_neg (by omega)]
  rw [e0]
  rw [forUp_seq' (by omega) (fun k => Dense.ofFn n n (fun r c => if r = j ∧ i ≤ c ∧ c < k then u r c - x * u i c else u r c))]
  · congr 1
    apply Dense.ofFn_congr
    intro r c _ _ _ hc
    by_cases h : r = j ∧ i ≤ c
    · rw [if_pos h, if_pos ⟨h.1, h.2, hc⟩]
    · rw [if_neg h, if_neg (by tauto)]
  · intro k h0 h1
    rw [Dense.get_ofFn hj hj' (by omega) h1, ok_bind, Dense.get_ofFn hi hi' (by omega) h1, ok_bind,
      Dense.put_ofFn _ hj hj' (by omega) h1]
    congr 1
    apply Dense.ofFn_congr
    intro r c _ _ _ _
    rw [if_neg (show ¬ (j = j ∧ i ≤ k ∧ k < k) by omega), if_neg (show ¬ (i = j ∧ i ≤ k ∧ k < k) by omega)]
    by_cases h : r = j ∧ c = k
    · obtain ⟨rfl, rfl⟩ := h
      rw [if_pos ⟨rfl, rfl⟩, if_pos (by omega)]
    · rw [if_neg h]
      by_cases h2 : r = j ∧ i ≤ c ∧ c < k
      · rw [if_pos h2, if_pos (by omega)]
      · rw [if_neg h2, if_neg (by omega)]

omit [One K] in
theorem luElim_eq {n : Nat} {i j : Int} (hi : 0 ≤ i) (hi' : i < n) (hj : 0 ≤ j) (hj' : j < n) (hij : i ≠ j)
    (l u : Int → Int → K) : luElim n i j (Dense.ofFn n n l, Dense.ofFn n n u)
      = if u i i = 0 then .error .divZero else
        .ok (Dense.ofFn n n (fun r c => if r = j ∧ c = i then u j i / u i i else l r c),
          Dense.ofFn n n (fun r c => if r = j ∧ i ≤ c then u r c - u j i / u i i * u i c else u r c)) := by
  unfold luElim
  simp only
  rw [Dense.get_ofFn hj hj' hi hi', ok_bind, Dense.get_ofFn hi hi' hi hi', ok_bind]
  unfold fdiv
  split
  · rfl
  · rw [ok_bind, luRow_eq hi hi' hj hj' hij, ok_bind, Dense.put_ofFn _ hj hj' hi hi', ok_bind]

theorem luStep_eq {n : Nat} {i : Int} (hi : 0 ≤ i) (hi' : i < n) (l u : Int → Int → K) :
    luStep n i (Dense.ofFn n n l, Dense.ofFn n n u)
      = if u i i = 0 ∧ i + 1 < n then .error .divZero
        else .ok (Dense.ofFn n n (nextL i l u), Dense.ofFn n n (nextU i u)) := by
  unfold luStep
  by_cases hlast : i + 1 < n
  · by_cases hp : u i i = 0
    · rw [if_pos ⟨hp, hlast⟩, forUp_cons hlast, luElim_eq hi hi' (by omega) hlast (by omega), if_pos hp]
      rfl
    · rw [if_neg (by tauto)]
      have e := forUp_seq' (a := i + 1) (b := n) (by omega) (body := fun j s => luElim n i j s)
        (fun k => (Dense.ofFn n n (fun r c => if i < r ∧ r < k ∧ c = i then u r i / u i i else l r c),
          Dense.ofFn n n (fun r c => if i < r ∧ r < k ∧ i ≤ c then u r c - u r i / u i i * u i c else u r c)))
        (by
          intro j h0 h1
          rw [luElim_eq hi hi' (by omega) h1 (by omega), if_neg (by rw [if_neg (by omega)]; exact hp)]
          rw [if_neg (show ¬ (i < i ∧ i < j ∧ i ≤ i) by omega), if_neg (show ¬ (i < j ∧ j < j ∧ i ≤ i) by omega)]
          congr 2
          · apply Dense.ofFn_congr
            intro r c _ _ _ _
            by_cases h : r = j ∧ c = i
            · obtain ⟨rfl, rfl⟩ := h
              rw [if_pos ⟨rfl, rfl⟩, if_pos (by omega)]
            · rw [if_neg h]
              by_cases h2 : i < r ∧ r < j ∧ c = i
              · rw [if_pos h2, if_pos (by omega)]
              · rw [if_neg h2, if_neg (by omega)]
          · apply Dense.ofFn_congr
            intro r c _ _ _ _
            rw [if_neg (show ¬ (i < i ∧ i < j ∧ i ≤ c) by omega)]
            by_cases h : r = j ∧ i ≤ c
            · obtain ⟨rfl, h⟩ := h
              rw [if_pos ⟨rfl, h⟩, if_neg (by omega), if_pos (by omega)]
            · rw [if_neg h]
              by_cases h2 : i < r ∧ r < j ∧ i ≤ c
              · rw [if_pos h2, if_pos (by omega)]
              · rw [if_neg h2, if_neg (by omega)])
      have e0 : (Dense.ofFn n n l, Dense.ofFn n n u)
          = (Dense.ofFn n n (fun r c => if i < r ∧ r < i + 1 ∧ c = i then u r i / u i i else l r c),
          Dense.ofFn n n (fun r c => if i < r ∧ r < i + 1 ∧ i ≤ c then u r c - u r i / u i i * u i c else u r c)) := by
        congr 1 <;> (apply Dense.ofFn_congr; intro r c _ _ _ _; rw [if_neg (by omega)])
      rw [e0, e, ok_bind]
      simp only
      rw [Dense.put_ofFn _ hi hi' hi hi', ok_bind]
      congr 2
      · apply Dense.ofFn_congr
        intro r c _ hr _ _
        unfold nextL
        by_cases hc : c = i
        · subst hc
          by_cases hr2 : r = c
          · simp [hr2]
          · rw [if_neg (by tauto), if_pos rfl, if_neg hr2]
            by_cases h3 : c < r
            · rw [if_pos h3, if_pos ⟨h3, hr, rfl⟩]
            · rw [if_neg h3, if_neg (by tauto)]
        · rw [if_neg (by tauto), if_neg (by tauto), if_neg hc]
      · apply Dense.ofFn_congr
        intro r c _ hr _ _
        unfold nextU
        by_cases h : i < r ∧ i ≤ c
        · rw [if_pos h, if_pos ⟨h.1, hr, h.2⟩]
        · rw [if_neg h, if_neg (by tauto)]
  · rw [if_neg (by tauto), forUp_nil (by omega), ok_bind]
    simp only
    rw [Dense.put_ofFn _ hi hi' hi hi', ok_bind]
    congr 2
    · apply Dense.ofFn_congr
      intro r c _ hr _ _
      unfold nextL
      by_cases hc : c = i
      · subst hc
        by_cases hr2 : r = c
        · simp [hr2]
        · rw [if_neg (by tauto), if_pos rfl, if_neg hr2, if_neg (by omega)]
      · rw [if_neg (by tauto), if_neg hc]
    · apply Dense.ofFn_congr
      intro r c _ hr _ _
      unfold nextU
      rw [if_neg (by omega)]

/-- `L` and `U` before pass `i`. -/
def luSeq (a : Int → Int → K) : Nat → (Int → Int → K) × (Int → Int → K)
  | 0 => (fun _ _ => 0, a)
  | i + 1 => (nextL i (luSeq a i).1 (luSeq a i).2, nextU i (luSeq a i).2)

theorem luDecomp_ok {n : Nat} (a : Int → Int → K) (h : ∀ i : Nat, i + 1 < n → (luSeq a i).2 i i ≠ 0) :
    luDecomp (Dense.ofFn n n a) = .ok (Dense.ofFn n n (luSeq a n).1, Dense.ofFn n n (luSeq a n).2) := by
  unfold luDecomp
  rw [Dense.ofFn_rows, Dense.zeros_ofFn, ok_bind]
  have e := forUp_inv_nat (n := n) (f := fun i s => luStep (n : Int) i s)
    (fun i s => s = (Dense.ofFn n n (luSeq a i).1, Dense.ofFn n n (luSeq a i).2))
    (s := (Dense.ofFn n n (luSeq a 0).1, Dense.ofFn n n (luSeq a 0).2)) rfl (by
      rintro i s hi rfl
      refine ⟨_, ?_, rfl⟩
      rw [luStep_eq (by omega) (by omega), if_neg]
      · rfl
      · rintro ⟨h1, h2⟩
        exact h i (by omega) h1)
  obtain ⟨s', e, rfl⟩ := e
  exact e

theorem luDecomp_err {n : Nat} (a : Int → Int → K) (h : ¬ ∀ i : Nat, i + 1 < n → (luSeq a i).2 i i ≠ 0) :
    luDecomp (Dense.ofFn n n a) = .error .divZero := by
  unfold luDecomp
  rw [Dense.ofFn_rows, Dense.zeros_ofFn, ok_bind]
  push Not at h
  obtain ⟨k, hk, hz⟩ := h
  refine forUp_fails (fun i s => s = (Dense.ofFn n n (luSeq a i.toNat).1, Dense.ofFn n n (luSeq a i.toNat).2))
    (fun i => ¬ (i + 1 < n ∧ (luSeq a i.toNat).2 i i = 0)) .divZero rfl ?_ ?_ ⟨k, by omega, by omega, ?_⟩
  · rintro i s h0 h1 rfl hg
    refine ⟨_, ?_, rfl⟩
    rw [luStep_eq h0 h1, if_neg (by tauto)]
    rw [show (i + 1).toNat = i.toNat + 1 by omega]
    simp only [luSeq]
    rw [Int.toNat_of_nonneg h0]
  · rintro i s h0 h1 rfl hg
    rw [luStep_eq h0 h1, if_pos (by tauto)]
  · simp only [not_not, Int.toNat_natCast]
    exact ⟨by omega, hz⟩

omit [DecidableEq K] in
/-- Row `i` of `U` is final after pass `i - 1`. -/
theorem luSeq_row (a : Int → Int → K) (i k : Nat) (h : i ≤ k) (c : Int) : (luSeq a k).2 i c = (luSeq a i).2 i c := by
  induction k with
  | zero => obtain rfl : i = 0 := by omega
            rfl
  | succ k ih =>
    by_cases hi : i = k + 1
    · rw [hi]
    · simp only [luSeq]
      rw [← ih (by omega)]
      unfold nextU
      rw [if_neg (by omega)]

omit [DecidableEq K] in
/-- Column `t` of `L` is final after pass `t`. -/
theorem luSeq_col (a : Int → Int → K) (t k : Nat) (h : t < k) (r : Int) : (luSeq a k).1 r t = (luSeq a (t + 1)).1 r t := by
  induction k with
  | zero => omega
  | succ k ih =>
    by_cases hi : t = k
    · rw [hi]
    · rw [← ih (by omega), luSeq]
      dsimp only
      unfold nextL
      rw [if_neg (by omega)]

end AnyOperations

variable {K : Type} [Field K] [DecidableEq K]

/-- What holds before pass `i` (of `n`). -/
structure LuInv (n : Nat) (a l u : Int → Int → K) (i : Nat) : Prop where
  prod : ∀ r c : Int, 0 ≤ r → r < n → 0 ≤ c → c < n →
    ∑ t ∈ Finset.Ico (0 : Int) i, l r t * u t c + (if (i : Int) ≤ r then u r c else 0) = a r c
  upper : ∀ r c : Int, 0 ≤ c → c < i → c < r → r < n → u r c = 0
  l_zero : ∀ r c : Int, (c < r → i ≤ c) → r ≠ c → l r c = 0
  l_diag : ∀ r : Int, 0 ≤ r → l r r = if r < i then 1 else 0

omit [DecidableEq K] in
theorem luInv {n : Nat} (a : Int → Int → K) (h : ∀ i : Nat, i + 1 < n → (luSeq a i).2 i i ≠ 0) (i : Nat) (hi : i ≤ n) :
    LuInv n a (luSeq a i).1 (luSeq a i).2 i := by
  induction i with
  | zero =>
    refine ⟨?_, ?_, ?_, ?_⟩
    · intro r c h0 _ _ _
      simp only [luSeq]
      rw [if_pos (by simpa using h0)]
      simp
    · intro r c h0 h1; omega
    · intro r c _ _; rfl
    · intro r h0; rw [if_neg (by push_cast; omega)]; rfl
  | succ i ih =>
    have I := ih (by omega)
    simp only [luSeq]
    generalize hl : (luSeq a i).1 = l at I
    generalize hu : (luSeq a i).2 = u at I
    have hp : i + 1 < n → u i i ≠ 0 := fun hlt => by have := h i hlt; rwa [hu] at this
    refine ⟨?_, ?_, ?_, ?_⟩
    · intro r c h0 h1 h2 h3
      have P := I.prod r c h0 h1 h2 h3
      have e : ((i + 1 : Nat) : Int) = (i : Int) + 1 := by push_cast; rfl
      rw [e, sum_Ico_succ _ (by omega)]
      have e1 : ∑ t ∈ Finset.Ico (0 : Int) i, nextL i l u r t * nextU i u t c
          = ∑ t ∈ Finset.Ico (0 : Int) i, l r t * u t c := by
        apply Finset.sum_congr rfl
        intro t ht
        have := Finset.mem_Ico.mp ht
        unfold nextL nextU
        rw [if_neg (by omega), if_neg (by omega)]
      rw [e1, ← P, add_assoc]
      congr 1
      have e2 : nextU i u i c = u i c := by unfold nextU; rw [if_neg (by omega)]
      rw [e2]
      rcases lt_trichotomy r (i : Int) with hr | hr | hr
      · rw [if_neg (by omega), if_neg (by omega), add_zero]
        have : nextL i l u r i = 0 := by
          unfold nextL
          rw [if_pos rfl, if_neg (by omega), if_neg (by omega)]
          exact I.l_zero r i (by omega) (by omega)
        rw [this, zero_mul]
      · subst hr
        rw [if_neg (by omega), if_pos (by omega), add_zero]
        have : nextL i l u i i = 1 := by unfold nextL; simp
        rw [this, one_mul]
      · rw [if_pos (by omega), if_pos (by omega)]
        have e3 : nextL i l u r i = u r i / u i i := by
          unfold nextL
          rw [if_pos rfl, if_neg (by omega), if_pos hr]
        rw [e3]
        unfold nextU
        by_cases hc : (i : Int) ≤ c
        · rw [if_pos ⟨hr, hc⟩]; ring
        · rw [if_neg (by tauto), I.upper i c h2 (by omega) (by omega) (by omega)]; ring
    · intro r c h0 h1 h2 h3
      unfold nextU
      by_cases hc : c = i
      · subst hc
        rw [if_pos ⟨h2, le_refl _⟩, div_mul_cancel₀ _ (hp (by omega)), sub_self]
      · rw [if_neg (by omega)]
        exact I.upper r c h0 (by omega) h2 h3
    · intro r c h1 h2
      unfold nextL
      by_cases hc : c = i
      · subst hc
        rw [if_pos rfl, if_neg h2]
        by_cases hr : (i : Int) < r
        · have := h1 hr; omega
        · rw [if_neg hr]; exact I.l_zero r i (by omega) h2
      · rw [if_neg hc]
        exact I.l_zero r c (fun hh => by have := h1 hh; omega) h2
    · intro r h0
      unfold nextL
      by_cases hc : r = i
      · subst hc
        rw [if_pos rfl, if_pos rfl, if_pos (by omega)]
      · rw [if_neg hc, I.l_diag r h0]
        by_cases h : r < i
        · rw [if_pos h, if_pos (by omega)]
        · rw [if_neg h, if_neg (by omega)]

omit [DecidableEq K] in
/-- If the matrix has a factorisation with non-zero pivots, the passes find it. -/
theorem luSeq_of_factor {n : Nat} (a l0 u0 : Int → Int → K)
    (hl : ∀ r c : Int, 0 ≤ r → r < n → r < c → c < n → l0 r c = 0) (hd : ∀ r : Int, 0 ≤ r → r < n → l0 r r = 1)
    (hu : ∀ r c : Int, 0 ≤ c → c < r → r < n → u0 r c = 0) (hp : ∀ i : Int, 0 ≤ i → i + 1 < n → u0 i i ≠ 0)
    (ha : ∀ r c : Int, 0 ≤ r → r < n → 0 ≤ c → c < n → ∑ t ∈ Finset.Ico (0 : Int) n, l0 r t * u0 t c = a r c)
    (i : Nat) (hi : i ≤ n) : ∀ r c : Int, 0 ≤ r → r < n → 0 ≤ c → c < n →
      (luSeq a i).2 r c = (if r < i then u0 r c else ∑ t ∈ Finset.Ico (i : Int) n, l0 r t * u0 t c) := by
  -- row `i` of the remaining part is the row of `u0`
  have row : ∀ (i : Nat) (c : Int), i < n → 0 ≤ c → c < n → ∑ t ∈ Finset.Ico (i : Int) n, l0 i t * u0 t c = u0 i c := by
    intro i c hin h2 h3
    rw [Finset.sum_eq_single (i : Int)]
    · rw [hd i (by omega) (by omega), one_mul]
    · intro t ht hne
      have := Finset.mem_Ico.mp ht
      rw [hl i t (by omega) (by omega) (by omega) (by omega), zero_mul]
    · intro hh; exact absurd (Finset.mem_Ico.mpr (by omega)) hh
  induction i with
  | zero =>
    intro r c h0 h1 h2 h3
    rw [if_neg (by push_cast; omega)]
    exact (ha r c h0 h1 h2 h3).symm
  | succ i ih =>
    have I := ih (by omega)
    intro r c h0 h1 h2 h3
    simp only [luSeq]
    unfold nextU
    have split : ∑ t ∈ Finset.Ico (i : Int) n, l0 r t * u0 t c
        = l0 r i * u0 i c + ∑ t ∈ Finset.Ico (((i + 1 : Nat)) : Int) n, l0 r t * u0 t c := by
      have e : Finset.Ico (i : Int) n = insert (i : Int) (Finset.Ico ((i + 1 : Nat) : Int) n) := by
        ext x; simp only [Finset.mem_Ico, Finset.mem_insert]; push_cast; omega
      rw [e, Finset.sum_insert (by simp)]
    by_cases hr : (i : Int) < r
    · rw [if_neg (show ¬ r < ((i + 1 : Nat) : Int) by push_cast; omega)]
      have e1 := I i i (by omega) (by omega) (by omega) (by omega)
      rw [if_neg (by omega), row i i (by omega) (by omega) (by omega)] at e1
      have e2 := I i c (by omega) (by omega) h2 h3
      rw [if_neg (by omega), row i c (by omega) h2 h3] at e2
      have e3 := I r c h0 h1 h2 h3
      rw [if_neg (by omega), split] at e3
      have e4 : (luSeq a i).2 r i = l0 r i * u0 i i := by
        rw [I r i h0 h1 (by omega) (by omega), if_neg (by omega), Finset.sum_eq_single (i : Int)]
        · intro t ht hne
          have := Finset.mem_Ico.mp ht
          rw [hu t i (by omega) (by omega) (by omega), mul_zero]
        · intro hh; exact absurd (Finset.mem_Ico.mpr (by omega)) hh
      by_cases hc : (i : Int) ≤ c
      · rw [if_pos ⟨hr, hc⟩, e1, e2, e3, e4, mul_div_cancel_right₀ _ (hp i (by omega) (by omega))]
        ring
      · rw [if_neg (by tauto), e3, hu i c h2 (by omega) (by omega)]
        ring
    · rw [if_neg (by tauto), if_pos (by push_cast; omega), I r c h0 h1 h2 h3]
      by_cases hri : r < i
      · rw [if_pos hri]
      · obtain rfl : r = i := by omega
        rw [if_neg (by omega), row i c (by omega) h2 h3]

/-! ## Triangular solves -/

theorem feStep_eq {n : Nat} (l : Int → Int → K) (b f : Int → K) {i : Int} (h0 : 0 ≤ i) (h1 : i < n) :
    feStep (Dense.ofFn n n l) (vecFn n b) i (vecFn n f) = if l i i = 0 then .error .divZero
      else .ok (vecFn n (fun a => if a = i then (b i + ∑ j ∈ Finset.Ico 0 i, -(l i j * f j)) / l i i else f a)) := by
  unfold feStep
  rw [vrd_vecFn h0 h1, ok_bind, sumDown h0 (fun j => -(l i j * f j)) _ _ (fun j v j0 j1 => by
    rw [Dense.get_ofFn h0 h1 j0 (by omega), ok_bind, vrd_vecFn j0 (by omega), ok_bind, sub_eq_add_neg]),
    ok_bind, Dense.get_ofFn h0 h1 h0 h1, ok_bind]
  unfold fdiv
  split
  · rfl
  · rw [ok_bind, vwr_vecFn _ h0 h1]

theorem forwardElim_ok {n : Nat} (l : Int → Int → K) (b : Int → K) (hd : ∀ i, 0 ≤ i → i < (n : Int) → l i i ≠ 0) :
    ∃ f, forwardElim (Dense.ofFn n n l) (vecFn n b) = .ok (vecFn n f) ∧
      ∀ i, 0 ≤ i → i < (n : Int) → ∑ j ∈ Finset.Ico 0 (i + 1), l i j * f j = b i := by
  unfold forwardElim
  rw [Dense.ofFn_rows, mkVec_nat, ok_bind, replicate_vecFn]
  obtain ⟨s, e, f, rfl, hf⟩ := forUp_inv (a := 0) (b := n) (by omega)
    (f := fun i x => feStep (Dense.ofFn n n l) (vecFn n b) i x)
    (fun k x => ∃ f, x = vecFn n f ∧ ∀ i, 0 ≤ i → i < k → ∑ j ∈ Finset.Ico 0 (i + 1), l i j * f j = b i)
    (s := vecFn n (fun _ => 0)) ⟨_, rfl, by intro i h0 h1; omega⟩ (by
      rintro i s h0 h1 ⟨f, rfl, hf⟩
      rw [feStep_eq l b f h0 h1, if_neg (hd i h0 h1)]
      refine ⟨_, rfl, _, rfl, ?_⟩
      intro r r0 r1
      rw [sum_Ico_succ _ r0]
      have e1 : ∀ m, m ≤ i → ∑ j ∈ Finset.Ico (0 : Int) m, l r j *
          (if j = i then (b i + ∑ j ∈ Finset.Ico 0 i, -(l i j * f j)) / l i i else f j)
          = ∑ j ∈ Finset.Ico (0 : Int) m, l r j * f j := by
        intro m hm
        apply Finset.sum_congr rfl
        intro j hj
        have := Finset.mem_Ico.mp hj
        rw [if_neg (by omega)]
      rw [e1 r (by omega)]
      by_cases hri : r = i
      · subst hri
        rw [if_pos rfl, mul_div_cancel₀ _ (hd r h0 h1), Finset.sum_neg_distrib]
        ring
      · rw [if_neg hri]
        have := hf r r0 (by omega)
        rwa [sum_Ico_succ _ r0] at this)
  exact ⟨f, e, fun i h0 h1 => hf i h0 h1⟩

theorem forwardElim_err {n : Nat} (l : Int → Int → K) (b : Int → K) (hd : ∃ i, 0 ≤ i ∧ i < (n : Int) ∧ l i i = 0) :
    forwardElim (Dense.ofFn n n l) (vecFn n b) = .error .divZero := by
  unfold forwardElim
  rw [Dense.ofFn_rows, mkVec_nat, ok_bind, replicate_vecFn]
  refine forUp_fails (fun _ s => ∃ f, s = vecFn n f) (fun i => l i i ≠ 0) .divZero ⟨_, rfl⟩ ?_ ?_ ?_
  · rintro i s h0 h1 ⟨f, rfl⟩ hg
    exact ⟨_, by rw [feStep_eq l b f h0 h1, if_neg hg], _, rfl⟩
  · rintro i s h0 h1 ⟨f, rfl⟩ hg
    rw [feStep_eq l b f h0 h1, if_pos (not_not.mp hg)]
  · obtain ⟨i, h0, h1, h2⟩ := hd
    exact ⟨i, h0, h1, not_not.mpr h2⟩

theorem bsStep_eq {n : Nat} (u : Int → Int → K) (b f : Int → K) {i : Int} (i0 : 0 ≤ i) (i1 : i < n) :
    bsStep (Dense.ofFn n n u) (vecFn n b) i (vecFn n f) = if u i i = 0 then .error .divZero
      else .ok (vecFn n (fun a => if a = i then (b i + ∑ j ∈ Finset.Ico (i + 1) (n : Int), -(u i j * f j)) / u i i
        else f a)) := by
  unfold bsStep
  rw [Dense.ofFn_rows, vrd_vecFn i0 i1, ok_bind, sumLoop' (by omega) (fun j => -(u i j * f j)) _ _ (fun j v j0 j1 => by
    rw [Dense.get_ofFn i0 i1 (by omega) j1, ok_bind, vrd_vecFn (by omega) j1, ok_bind, sub_eq_add_neg]),
    ok_bind, Dense.get_ofFn i0 i1 i0 i1, ok_bind]
  unfold fdiv
  split
  · rfl
  · rw [ok_bind, vwr_vecFn _ i0 i1]

theorem backSolve_ok {n : Nat} (u : Int → Int → K) (b : Int → K) (hd : ∀ i, 0 ≤ i → i < (n : Int) → u i i ≠ 0) :
    ∃ f, backSolve (Dense.ofFn n n u) (vecFn n b) = .ok (vecFn n f) ∧
      ∀ i, 0 ≤ i → i < (n : Int) → ∑ j ∈ Finset.Ico i n, u i j * f j = b i := by
  unfold backSolve forDown
  rw [Dense.ofFn_rows, mkVec_nat, ok_bind, replicate_vecFn]
  obtain ⟨s, e, f, rfl, hf⟩ := forUp_inv (a := 0) (b := (n : Int) - 1 - -1) (by omega)
    (f := fun k x => bsStep (Dense.ofFn n n u) (vecFn n b) ((n : Int) - 1 - k) x)
    (fun k x => ∃ f, x = vecFn n f ∧ ∀ i, (n : Int) - k ≤ i → i < n → ∑ j ∈ Finset.Ico i n, u i j * f j = b i)
    (s := vecFn n (fun _ => 0)) ⟨_, rfl, by intro i h0 h1; omega⟩ (by
      rintro k s h0 h1 ⟨f, rfl, hf⟩
      obtain ⟨i, hi⟩ : ∃ i, i = (n : Int) - 1 - k := ⟨_, rfl⟩
      simp only [← hi]
      have i0 : 0 ≤ i := by omega
      have i1 : i < n := by omega
      rw [bsStep_eq u b f i0 i1, if_neg (hd i i0 i1)]
      refine ⟨_, rfl, _, rfl, ?_⟩
      intro r r0 r1
      have split : ∀ g : Int → K, ∑ j ∈ Finset.Ico r n, g j = g r + ∑ j ∈ Finset.Ico (r + 1) n, g j := by
        intro g
        have e : Finset.Ico r (n : Int) = insert r (Finset.Ico (r + 1) n) := by
          ext x; simp only [Finset.mem_Ico, Finset.mem_insert]; omega
        rw [e, Finset.sum_insert (by simp)]
      rw [split]
      have e1 : ∑ j ∈ Finset.Ico (r + 1) (n : Int), u r j *
          (if j = i then (b i + ∑ j ∈ Finset.Ico (i + 1) (n : Int), -(u i j * f j)) / u i i else f j)
          = ∑ j ∈ Finset.Ico (r + 1) (n : Int), u r j * f j := by
        apply Finset.sum_congr rfl
        intro j hj
        have := Finset.mem_Ico.mp hj
        rw [if_neg (by omega)]
      rw [e1]
      by_cases hri : r = i
      · subst hri
        rw [if_pos rfl, mul_div_cancel₀ _ (hd r i0 i1), Finset.sum_neg_distrib]
        ring
      · rw [if_neg hri]
        have := hf r (by omega) r1
        rwa [split] at this)
  exact ⟨f, e, fun i h0 h1 => hf i (by omega) h1⟩

theorem backSolve_err {n : Nat} (u : Int → Int → K) (b : Int → K) (hd : ∃ i, 0 ≤ i ∧ i < (n : Int) ∧ u i i = 0) :
    backSolve (Dense.ofFn n n u) (vecFn n b) = .error .divZero := by
  unfold backSolve forDown
  rw [Dense.ofFn_rows, mkVec_nat, ok_bind, replicate_vecFn]
  refine forUp_fails (fun _ s => ∃ f, s = vecFn n f) (fun k => u ((n : Int) - 1 - k) ((n : Int) - 1 - k) ≠ 0) .divZero
    ⟨_, rfl⟩ ?_ ?_ ?_
  · rintro i s h0 h1 ⟨f, rfl⟩ hg
    exact ⟨_, (bsStep_eq u b f (by omega) (by omega)).trans (if_neg hg), _, rfl⟩
  · rintro i s h0 h1 ⟨f, rfl⟩ hg
    show bsStep _ _ _ _ = _
    rw [bsStep_eq u b f (by omega) (by omega), if_pos (not_not.mp hg)]
  · obtain ⟨i, h0, h1, h2⟩ := hd
    refine ⟨(n : Int) - 1 - i, by omega, by omega, ?_⟩
    simp only [sub_sub_cancel, ne_eq, not_not]
    exact h2

end Example
end Linalg
