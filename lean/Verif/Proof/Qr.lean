import Verif.Proof.Examples
import Verif.Proof.View

/-!
# Lemmas on the QR example
-/

namespace Linalg
open Cpp

namespace Example
variable {K : Type} [Field K]

theorem rd_data {m n : Nat} {q : Int → Int → K} {r c : Int} (h0 : 0 ≤ r) (h1 : r < m) (h2 : 0 ≤ c) (h3 : c < n) :
    rd (Dense.ofFn m n q).data (c * m + r) = .ok (q r c) := by
  have := Dense.get_ofFn (f := q) h0 h1 h2 h3
  unfold Dense.get at this
  rw [Dense.checkIdx_ok h0 (by simpa using h1) h2 (by simpa using h3), ok_bind, Dense.ofFn_rows] at this
  rw [add_comm]
  exact this

theorem wr_data {m n : Nat} {q : Int → Int → K} {r c : Int} (x : K) (h0 : 0 ≤ r) (h1 : r < m) (h2 : 0 ≤ c)
    (h3 : c < n) : wr (Dense.ofFn m n q).data (c * m + r) x
      = .ok (Dense.ofFn m n (fun a b => if a = r ∧ b = c then x else q a b)).data := by
  have := Dense.put_ofFn (f := q) x h0 h1 h2 h3
  unfold Dense.put at this
  rw [Dense.checkIdx_ok h0 (by simpa using h1) h2 (by simpa using h3), ok_bind, Dense.ofFn_rows] at this
  rw [add_comm]
  obtain ⟨d, e1, e2⟩ := bind_eq_ok.mp this
  rw [e1]
  injection e2 with e2
  rw [← e2]

theorem colView_eq (m n : Nat) (q : Int → Int → K) {c : Int} (h2 : 0 ≤ c) (h3 : c < n) :
    (Dense.ofFn m n q).getColView c = .ok ⟨c * m, m⟩ := by
  unfold Dense.getColView
  rw [cassert_true ⟨h2, by simpa using h3⟩]
  rfl

theorem viewElems_eq {m n : Nat} {q : Int → Int → K} {c : Int} (h2 : 0 ≤ c) (h3 : c < n) :
    viewElems ⟨c * m, m⟩ (Dense.ofFn m n q).data = .ok (vecFn m (fun r => q r c)) := by
  unfold viewElems
  simp only [Int.toNat_natCast]
  rw [mapM_ok _ _ (fun r => q r c), vecFn_iota]
  intro r hr
  have : 0 ≤ r ∧ r < m := by
    simp only [iota, List.mem_map, List.mem_range] at hr
    obtain ⟨a, ha, rfl⟩ := hr
    constructor <;> simp <;> omega
  unfold View.get
  rw [cassert_true (by simpa using this.2), ok_bind]
  exact rd_data this.1 this.2 h2 h3

theorem combine_eq {m n : Nat} {q : Int → Int → K} {i j : Int} (hi : 0 ≤ i) (hi' : i < n) (hj : 0 ≤ j) (hj' : j < n)
    (hij : j ≠ i) (x : K) : View.combine 1 ⟨i * m, m⟩ (-x) ⟨j * m, m⟩ 0 ⟨i * m, m⟩ (Dense.ofFn m n q).data
      = .ok (Dense.ofFn m n (fun a b => if b = i then q a i - x * q a j else q a b)).data := by
  unfold View.combine
  rw [cassert_true rfl, ok_bind, ok_bind]
  have e0 : (Dense.ofFn m n q) = Dense.ofFn m n (fun a b => if b = i ∧ a < 0 then q a i - x * q a j else q a b) := by
    apply Dense.ofFn_congr
    intro a b _ _ _ _
    rw [if_neg (by omega)]
  rw [e0]
  rw [forUp_seq (by simp) (fun k => (Dense.ofFn m n (fun a b => if b = i ∧ a < k then q a i - x * q a j else q a b)).data)]
  · congr 2
    apply Dense.ofFn_congr
    intro a b _ ha _ _
    by_cases h : b = i
    · rw [if_pos h, if_pos ⟨h, ha⟩]
    · rw [if_neg h, if_neg (by tauto)]
  · intro k h0 h1
    simp only at h1
    unfold View.get View.put
    simp only
    rw [cassert_true h1]
    simp only [ok_bind]
    rw [rd_data h0 h1 hi hi', ok_bind, rd_data h0 h1 hj hj', ok_bind, ok_bind, wr_data _ h0 h1 hi hi']
    congr 2
    apply Dense.ofFn_congr
    intro a b _ _ _ _
    rw [if_neg (show ¬ (i = i ∧ k < k) by omega), if_neg (show ¬ (j = i ∧ k < k) by omega)]
    by_cases h : a = k ∧ b = i
    · obtain ⟨rfl, rfl⟩ := h
      rw [if_pos ⟨rfl, rfl⟩, if_pos (by omega)]
      ring
    · rw [if_neg h]
      by_cases h2 : b = i ∧ a < k
      · rw [if_pos h2, if_pos (by omega)]
      · rw [if_neg h2, if_neg (by omega)]

theorem divScalar_eq [DecidableEq K] {m n : Nat} {q : Int → Int → K} {i : Int} (hi : 0 ≤ i) (hi' : i < n) (x : K)
    (hx : x ≠ 0) : View.divScalar ⟨i * m, m⟩ x (Dense.ofFn m n q).data
      = .ok (Dense.ofFn m n (fun a b => if b = i then q a i / x else q a b)).data := by
  unfold View.divScalar
  rw [cassert_true hx, ok_bind]
  have e0 : (Dense.ofFn m n q) = Dense.ofFn m n (fun a b => if b = i ∧ a < 0 then q a i / x else q a b) := by
    apply Dense.ofFn_congr
    intro a b _ _ _ _
    rw [if_neg (by omega)]
  rw [e0]
  rw [forUp_seq (by simp) (fun k => (Dense.ofFn m n (fun a b => if b = i ∧ a < k then q a i / x else q a b)).data)]
  · congr 2
    apply Dense.ofFn_congr
    intro a b _ ha _ _
    by_cases h : b = i
    · rw [if_pos h, if_pos ⟨h, ha⟩]
    · rw [if_neg h, if_neg (by tauto)]
  · intro k h0 h1
    simp only at h1
    simp only
    rw [rd_data h0 h1 hi hi', ok_bind, wr_data _ h0 h1 hi hi']
    congr 2
    apply Dense.ofFn_congr
    intro a b _ _ _ _
    rw [if_neg (show ¬ (i = i ∧ k < k) by omega)]
    by_cases h : a = k ∧ b = i
    · obtain ⟨rfl, rfl⟩ := h
      rw [if_pos ⟨rfl, rfl⟩, if_pos (by omega)]
    · rw [if_neg h]
      by_cases h2 : b = i ∧ a < k
      · rw [if_pos h2, if_pos (by omega)]
      · rw [if_neg h2, if_neg (by omega)]

/-- The projection coefficient of column `i` on column `j`. -/
def qrCoef (m : Nat) (a q : Int → Int → K) (i j : Int) : K := dotFn m (fun r => a r i) (fun r => q r j)

/-- Column `i` minus its projections on the first `k` columns of `q`. -/
def qrRest (m : Nat) (a q : Int → Int → K) (i k : Int) : Int → K :=
  fun r => a r i - ∑ j ∈ Finset.Ico 0 k, qrCoef m a q i j * q r j

theorem qrProj_eq {m n : Nat} {a q r : Int → Int → K} {i j : Int} (hi : 0 ≤ i) (hi' : i < n) (hj : 0 ≤ j) (hij : j < i) :
    qrProj (Dense.ofFn m n a) (Dense.ofFn m n a) i j ((Dense.ofFn m n q).data, Dense.ofFn n n r)
      = .ok ((Dense.ofFn m n (fun x b => if b = i then q x i - qrCoef m a q i j * q x j else q x b)).data,
        Dense.ofFn n n (fun x y => if x = j ∧ y = i then qrCoef m a q i j else r x y)) := by
  unfold qrProj
  simp only
  rw [colView_eq m n a hi hi', ok_bind, ok_bind, colView_eq m n a hj (by omega), ok_bind, viewElems_eq hi hi', ok_bind,
    viewElems_eq hj (by omega), ok_bind, Vec.inner_vecFn, ok_bind, Dense.put_ofFn _ hj (by omega) hi hi', ok_bind,
    combine_eq hi hi' hj (by omega) (by omega), ok_bind]
  rfl

/-- The loop over `j`. -/
theorem qrProjs_eq {m n : Nat} {a q r : Int → Int → K} {i : Int} (hi : 0 ≤ i) (hi' : i < n)
    (hq : ∀ x, 0 ≤ x → x < (m : Int) → q x i = a x i) :
    forUp 0 i ((Dense.ofFn m n q).data, Dense.ofFn n n r)
        (fun j s => qrProj (Dense.ofFn m n a) (Dense.ofFn m n a) i j s)
      = .ok ((Dense.ofFn m n (fun x b => if b = i then qrRest m a q i i x else q x b)).data,
        Dense.ofFn n n (fun x y => if x < i ∧ y = i then qrCoef m a q i x else r x y)) := by
  have e0 : ((Dense.ofFn m n q).data, Dense.ofFn n n r)
      = ((Dense.ofFn m n (fun x b => if b = i then qrRest m a q i 0 x else q x b)).data,
        Dense.ofFn n n (fun x y => if x < 0 ∧ y = i then qrCoef m a q i x else r x y)) := by
    refine Prod.ext ?_ ?_
    · refine congrArg Dense.data ?_
      apply Dense.ofFn_congr
      intro x b h0 h1 _ _
      by_cases h : b = i
      · rw [if_pos h, h, hq x h0 h1]; simp [qrRest]
      · rw [if_neg h]
    · rfl
  rw [e0]
  refine forUp_seq hi (fun k => ((Dense.ofFn m n (fun x b => if b = i then qrRest m a q i k x else q x b)).data,
        Dense.ofFn n n (fun x y => if x < k ∧ y = i then qrCoef m a q i x else r x y))) ?_
  intro j h0 h1
  have ec : qrCoef m a (fun x b => if b = i then qrRest m a q i j x else q x b) i j = qrCoef m a q i j := by
    unfold qrCoef
    apply dotFn_congr
    · intro _ _ _; rfl
    · intro x _ _; simp only; rw [if_neg (by omega)]
  rw [qrProj_eq hi hi' h0 h1, ec]
  congr 2
  · congr 1
    apply Dense.ofFn_congr
    intro x b _ _ _ _
    by_cases h : b = i
    · rw [if_pos h, if_pos h, if_pos rfl, if_neg (by omega)]
      unfold qrRest
      rw [sum_Ico_succ _ h0]
      ring
    · rw [if_neg h, if_neg h, if_neg h]
  · apply Dense.ofFn_congr
    intro x y _ _ _ _
    by_cases h : x = j ∧ y = i
    · obtain ⟨rfl, rfl⟩ := h
      rw [if_pos ⟨rfl, rfl⟩, if_pos (by omega)]
    · rw [if_neg h]
      by_cases h2 : x < j ∧ y = i
      · rw [if_pos h2, if_pos (by omega)]
      · rw [if_neg h2, if_neg (by omega)]

variable [DecidableEq K]

/-- The norm of the rest. -/
def qrNorm (sqrt : K → K) (m : Nat) (a q : Int → Int → K) (i : Int) : K :=
  sqrt (dotFn m (qrRest m a q i i) (qrRest m a q i i))

/-- `Q` after pass `i`. -/
def nextQ (sqrt : K → K) (m : Nat) (a q : Int → Int → K) (i : Int) : Int → Int → K := fun x b =>
  if b = i then qrRest m a q i i x / qrNorm sqrt m a q i else q x b

/-- `R` after pass `i`. -/
def nextR (sqrt : K → K) (m : Nat) (a q r : Int → Int → K) (i : Int) : Int → Int → K := fun x y =>
  if y = i then
    if x = i then dotFn m (fun t => a t i) (fun t => qrRest m a q i i t / qrNorm sqrt m a q i)
    else if x < i then qrCoef m a q i x else r x y
  else r x y

theorem qrStep_eq (sqrt : K → K) {m n : Nat} {a q r : Int → Int → K} {i : Int} (hi : 0 ≤ i) (hi' : i < n)
    (hq : ∀ x, 0 ≤ x → x < (m : Int) → q x i = a x i) :
    qrStep sqrt (Dense.ofFn m n a) (Dense.ofFn m n a) i ((Dense.ofFn m n q).data, Dense.ofFn n n r)
      = if qrNorm sqrt m a q i = 0 then .error .assertFail
        else .ok ((Dense.ofFn m n (nextQ sqrt m a q i)).data, Dense.ofFn n n (nextR sqrt m a q r i)) := by
  unfold qrStep
  rw [colView_eq m n a hi hi', ok_bind, ok_bind, qrProjs_eq hi hi' hq, ok_bind]
  simp only
  rw [viewElems_eq hi hi', ok_bind]
  unfold Vec.l2Norm
  rw [Vec.inner_vecFn, ok_bind]
  simp only [if_true]
  rw [show sqrt (dotFn m (fun r => qrRest m a q i i r) (fun r => qrRest m a q i i r)) = qrNorm sqrt m a q i from rfl, ok_bind]
  split
  · next h =>
    unfold View.divScalar
    rw [cassert_false (by simpa using h)]
    rfl
  · next h =>
    rw [divScalar_eq hi hi' _ h, ok_bind, viewElems_eq hi hi', ok_bind, viewElems_eq hi hi', ok_bind, Vec.inner_vecFn,
      ok_bind, Dense.put_ofFn _ hi hi' hi hi', ok_bind]
    simp only [if_true]
    congr 2
    · congr 1
      apply Dense.ofFn_congr
      intro x b _ _ _ _
      unfold nextQ
      by_cases h : b = i
      · rw [if_pos h, if_pos h]
      · rw [if_neg h, if_neg h, if_neg h]
    · apply Dense.ofFn_congr
      intro x y _ _ _ _
      unfold nextR
      by_cases hy : y = i
      · by_cases hx : x = i
        · rw [if_pos ⟨hx, hy⟩, if_pos hy, if_pos hx]
        · rw [if_neg (by tauto), if_pos hy, if_neg hx]
          by_cases hlt : x < i
          · rw [if_pos hlt, if_pos ⟨hlt, hy⟩]
          · rw [if_neg hlt, if_neg (by tauto)]
      · rw [if_neg (by tauto), if_neg (by tauto), if_neg hy]

/-- `Q` and `R` before pass `i`. -/
def qrSeq (sqrt : K → K) (m : Nat) (a : Int → Int → K) : Nat → (Int → Int → K) × (Int → Int → K)
  | 0 => (a, fun _ _ => 0)
  | i + 1 => (nextQ sqrt m a (qrSeq sqrt m a i).1 i, nextR sqrt m a (qrSeq sqrt m a i).1 (qrSeq sqrt m a i).2 i)

omit [DecidableEq K] in
theorem qrSeq_later (sqrt : K → K) (m : Nat) (a : Int → Int → K) (i : Nat) (x b : Int) (h : (i : Int) ≤ b) :
    (qrSeq sqrt m a i).1 x b = a x b := by
  induction i with
  | zero => rfl
  | succ i ih =>
    simp only [qrSeq]
    unfold nextQ
    rw [if_neg (by push_cast at h; omega)]
    exact ih (by push_cast at h; omega)

theorem qrDecomp_ok (sqrt : K → K) {m n : Nat} (a : Int → Int → K)
    (h : ∀ i : Nat, i < n → qrNorm sqrt m a (qrSeq sqrt m a i).1 i ≠ 0) :
    qrDecomp sqrt (Dense.ofFn m n a) = .ok (Dense.ofFn m n (qrSeq sqrt m a n).1, Dense.ofFn n n (qrSeq sqrt m a n).2) := by
  unfold qrDecomp
  rw [Dense.ofFn_cols, Dense.zeros_ofFn, ok_bind]
  obtain ⟨s', e, rfl⟩ := forUp_inv_nat (n := n)
    (f := fun i s => qrStep sqrt (Dense.ofFn m n a) (Dense.ofFn m n a) i s)
    (fun i s => s = ((Dense.ofFn m n (qrSeq sqrt m a i).1).data, Dense.ofFn n n (qrSeq sqrt m a i).2))
    (s := ((Dense.ofFn m n a).data, Dense.ofFn n n (fun _ _ => 0))) rfl (by
      rintro i s hi rfl
      refine ⟨_, ?_, rfl⟩
      rw [qrStep_eq sqrt (by omega) (by omega) (fun x _ _ => qrSeq_later sqrt m a i x i (le_refl _)), if_neg (h i hi)]
      rfl)
  rw [e, ok_bind]
  rfl

theorem qrDecomp_err (sqrt : K → K) {m n : Nat} (a : Int → Int → K)
    (h : ¬ ∀ i : Nat, i < n → qrNorm sqrt m a (qrSeq sqrt m a i).1 i ≠ 0) :
    qrDecomp sqrt (Dense.ofFn m n a) = .error .assertFail := by
  unfold qrDecomp
  rw [Dense.ofFn_cols, Dense.zeros_ofFn, ok_bind]
  push Not at h
  obtain ⟨k, hk, hz⟩ := h
  have e : forUp 0 (n : Int) ((Dense.ofFn m n a).data, Dense.ofFn n n (fun _ _ => 0))
      (fun i s => qrStep sqrt (Dense.ofFn m n a) (Dense.ofFn m n a) i s) = .error .assertFail := by
   refine forUp_fails (fun i s => s = ((Dense.ofFn m n (qrSeq sqrt m a i.toNat).1).data,
       Dense.ofFn n n (qrSeq sqrt m a i.toNat).2))
     (fun i => qrNorm sqrt m a (qrSeq sqrt m a i.toNat).1 i ≠ 0) .assertFail rfl ?_ ?_ ⟨k, by omega, by omega, ?_⟩
   · rintro i s h0 h1 rfl hg
     refine ⟨_, ?_, rfl⟩
     rw [qrStep_eq sqrt h0 h1 (fun x _ _ => qrSeq_later sqrt m a i.toNat x i (by omega)), if_neg hg]
     rw [show (i + 1).toNat = i.toNat + 1 by omega]
     simp only [qrSeq]
     rw [Int.toNat_of_nonneg h0]
   · rintro i s h0 h1 rfl hg
     rw [qrStep_eq sqrt h0 h1 (fun x _ _ => qrSeq_later sqrt m a i.toNat x i (by omega)), if_pos (not_not.mp hg)]
   · simpa using hz
  rw [e]
  rfl

/-! ## The factorisation -/

/-- What holds before pass `i`. -/
structure QrInv (m : Nat) (a q r : Int → Int → K) (i : Nat) : Prop where
  orth : ∀ b c : Int, 0 ≤ b → b < i → 0 ≤ c → c < i → dotFn m (fun t => q t b) (fun t => q t c) = if b = c then 1 else 0
  prod : ∀ b : Int, 0 ≤ b → b < i → ∀ t, a t b = ∑ j ∈ Finset.Ico 0 (b + 1), q t j * r j b
  zero : ∀ x y : Int, (y < x ∨ (i : Int) ≤ y) → r x y = 0
  diag : ∀ b : Int, 0 ≤ b → b < i → r b b ≠ 0
  span : ∀ b : Int, 0 ≤ b → b < i → ∃ c : Int → K, (∀ k, b < k → c k = 0) ∧
    ∀ t, q t b = ∑ k ∈ Finset.Ico 0 (i : Int), a t k * c k

omit [DecidableEq K] in
theorem dotFn_sub_right (n : Int) (f g h : Int → K) : dotFn n f (fun t => g t - h t) = dotFn n f g - dotFn n f h := by
  simp only [dotFn, mul_sub, Finset.sum_sub_distrib]

omit [DecidableEq K] in
theorem dotFn_sum_right (n : Int) (f : Int → K) (s : Finset Int) (c : Int → K) (g : Int → Int → K) :
    dotFn n f (fun t => ∑ j ∈ s, c j * g t j) = ∑ j ∈ s, c j * dotFn n f (fun t => g t j) := by
  simp only [dotFn, Finset.mul_sum]
  rw [Finset.sum_comm]
  exact Finset.sum_congr rfl (fun _ _ => Finset.sum_congr rfl (fun _ _ => by ring))

omit [DecidableEq K] in
theorem dotFn_div_right (n : Int) (f g : Int → K) (x : K) : dotFn n f (fun t => g t / x) = dotFn n f g / x := by
  simp only [dotFn, Finset.sum_div]
  exact Finset.sum_congr rfl (fun _ _ => by ring)

omit [DecidableEq K] in
/-- The rest is orthogonal to the columns found so far. -/
theorem qrRest_orth {m : Nat} {a q r : Int → Int → K} {i : Nat} (I : QrInv m a q r i) (b : Int) (h0 : 0 ≤ b) (h1 : b < i) :
    dotFn m (fun t => q t b) (qrRest m a q i i) = 0 := by
  have : qrRest m a q i i = fun t => a t i - ∑ j ∈ Finset.Ico 0 (i : Int), qrCoef m a q i j * q t j := rfl
  rw [this, dotFn_sub_right, dotFn_sum_right, Finset.sum_eq_single b]
  · rw [I.orth b b h0 h1 h0 h1, if_pos rfl, mul_one]
    unfold qrCoef
    rw [dotFn_symm, sub_self]
  · intro j hj hne
    have := Finset.mem_Ico.mp hj
    rw [I.orth b j h0 h1 this.1 this.2, if_neg (Ne.symm hne), mul_zero]
  · intro hh; exact absurd (Finset.mem_Ico.mpr ⟨h0, h1⟩) hh

omit [DecidableEq K] in
theorem qrInv_step (sqrt : K → K) {m : Nat} {a q r : Int → Int → K} {i : Nat} (I : QrInv m a q r i)
    (hn : qrNorm sqrt m a q i ≠ 0)
    (hs : qrNorm sqrt m a q i * qrNorm sqrt m a q i = dotFn m (qrRest m a q i i) (qrRest m a q i i)) :
    QrInv m a (nextQ sqrt m a q i) (nextR sqrt m a q r i) (i + 1) := by
  have eq_old : ∀ b : Int, b ≠ i → (fun t => nextQ sqrt m a q i t b) = fun t => q t b := by
    intro b hb; funext t; unfold nextQ; rw [if_neg hb]
  have eq_new : (fun t => nextQ sqrt m a q i t i) = fun t => qrRest m a q i i t / qrNorm sqrt m a q i := by
    funext t; unfold nextQ; rw [if_pos rfl]
  have o1 : ∀ b : Int, 0 ≤ b → b < i →
      dotFn m (fun t => q t b) (fun t => qrRest m a q i i t / qrNorm sqrt m a q i) = 0 := by
    intro b h0 h1
    rw [dotFn_div_right, qrRest_orth I b h0 h1, zero_div]
  have o2 : dotFn m (fun t => qrRest m a q i i t / qrNorm sqrt m a q i)
      (fun t => qrRest m a q i i t / qrNorm sqrt m a q i) = 1 := by
    rw [dotFn_div_right, dotFn_symm, dotFn_div_right, ← hs]
    field_simp
  -- the diagonal coefficient is the norm
  have hd : dotFn m (fun t => a t i) (fun t => qrRest m a q i i t / qrNorm sqrt m a q i) = qrNorm sqrt m a q i := by
    have ea : (fun t => a t i) = fun t => (-∑ j ∈ Finset.Ico 0 (i : Int), (-qrCoef m a q i j) * q t j) + qrRest m a q i i t := by
      funext t; unfold qrRest; simp only [neg_mul, Finset.sum_neg_distrib]; ring
    rw [dotFn_div_right, div_eq_iff hn, hs]
    have e2 : dotFn m (fun t => a t i) (qrRest m a q i i)
        = dotFn m (qrRest m a q i i) (fun t => qrRest m a q i i t - ∑ j ∈ Finset.Ico 0 (i : Int), (-qrCoef m a q i j) * q t j) := by
      rw [dotFn_symm]
      congr 1
      rw [ea]; funext t; ring
    rw [e2, dotFn_sub_right, dotFn_sum_right, Finset.sum_eq_zero, sub_zero]
    intro j hj
    have := Finset.mem_Ico.mp hj
    rw [dotFn_symm, qrRest_orth I j this.1 this.2, mul_zero]
  have r_new : nextR sqrt m a q r i i i = qrNorm sqrt m a q i := by
    unfold nextR; rw [if_pos rfl, if_pos rfl, hd]
  refine ⟨?_, ?_, ?_, ?_, ?_⟩
  · intro b c h0 h1 h2 h3
    push_cast at h1 h3
    by_cases hb : b = i
    · by_cases hc : c = i
      · subst hb; subst hc
        rw [eq_new, if_pos rfl, o2]
      · rw [hb, eq_new, eq_old c hc, if_neg (fun h => hc h.symm), dotFn_symm, o1 c h2 (by omega)]
    · by_cases hc : c = i
      · rw [hc, eq_new, eq_old b hb, if_neg hb, o1 b h0 (by omega)]
      · rw [eq_old b hb, eq_old c hc, I.orth b c h0 (by omega) h2 (by omega)]
  · intro b h0 h1 t
    push_cast at h1
    by_cases hb : b = i
    · subst hb
      rw [sum_Ico_succ _ h0, r_new]
      have e1 : ∑ j ∈ Finset.Ico 0 (i : Int), nextQ sqrt m a q i t j * nextR sqrt m a q r i j i
          = ∑ j ∈ Finset.Ico 0 (i : Int), qrCoef m a q i j * q t j := by
        apply Finset.sum_congr rfl
        intro j hj
        have := Finset.mem_Ico.mp hj
        unfold nextQ nextR
        rw [if_neg (by omega), if_pos rfl, if_neg (by omega), if_pos (by omega), mul_comm]
      rw [e1]
      have : nextQ sqrt m a q i t i = qrRest m a q i i t / qrNorm sqrt m a q i := by unfold nextQ; rw [if_pos rfl]
      rw [this, div_mul_cancel₀ _ hn]
      unfold qrRest
      ring
    · rw [I.prod b h0 (by omega) t]
      apply Finset.sum_congr rfl
      intro j hj
      have := Finset.mem_Ico.mp hj
      unfold nextQ nextR
      rw [if_neg (by omega), if_neg hb]
  · intro x y h
    push_cast at h
    unfold nextR
    by_cases hy : y = i
    · rw [if_pos hy, if_neg (by omega), if_neg (by omega)]
      exact I.zero x y (by omega)
    · rw [if_neg hy]
      exact I.zero x y (by omega)
  · intro b h0 h1
    push_cast at h1
    by_cases hb : b = i
    · subst hb; rw [r_new]; exact hn
    · unfold nextR
      rw [if_neg hb]
      exact I.diag b h0 (by omega)
  · intro b h0 h1
    push_cast at h1
    have ext : ∀ c : Int → K, (∀ k, (i : Int) ≤ k → c k = 0) → ∀ t,
        ∑ k ∈ Finset.Ico 0 ((i + 1 : Nat) : Int), a t k * c k = ∑ k ∈ Finset.Ico 0 (i : Int), a t k * c k := by
      intro c hc t
      rw [show ((i + 1 : Nat) : Int) = (i : Int) + 1 by push_cast; rfl, sum_Ico_succ _ (by omega), hc i (le_refl _),
        mul_zero, add_zero]
    by_cases hb : b = i
    · subst hb
      have hsp := fun j : Int => fun (h0 : 0 ≤ j) (h1 : j < i) => I.span j h0 h1
      choose c hc1 hc2 using hsp
      refine ⟨fun k => ((if k = i then 1 else 0) - ∑ j ∈ (Finset.Ico 0 (i : Int)).attach, qrCoef m a q i j.1 *
        c j.1 (Finset.mem_Ico.mp j.2).1 (Finset.mem_Ico.mp j.2).2 k) / qrNorm sqrt m a q i, ?_, ?_⟩
      · intro k hk
        simp only
        rw [if_neg (by omega), Finset.sum_eq_zero, sub_zero, zero_div]
        intro j _
        have := Finset.mem_Ico.mp j.2
        rw [hc1 _ _ _ k (by omega), mul_zero]
      · intro t
        have : nextQ sqrt m a q i t i = qrRest m a q i i t / qrNorm sqrt m a q i := by unfold nextQ; rw [if_pos rfl]
        rw [this, div_eq_iff hn, Finset.sum_mul]
        have e1 : ∀ k, a t k * (((if k = (i : Int) then 1 else 0) - ∑ j ∈ (Finset.Ico 0 (i : Int)).attach, qrCoef m a q i j.1 *
            c j.1 (Finset.mem_Ico.mp j.2).1 (Finset.mem_Ico.mp j.2).2 k) / qrNorm sqrt m a q i) * qrNorm sqrt m a q i
            = (if k = (i : Int) then a t k else 0) - ∑ j ∈ (Finset.Ico 0 (i : Int)).attach, qrCoef m a q i j.1 *
              (a t k * c j.1 (Finset.mem_Ico.mp j.2).1 (Finset.mem_Ico.mp j.2).2 k) := by
          intro k
          rw [mul_assoc, div_mul_cancel₀ _ hn, mul_sub, mul_ite, mul_one, mul_zero, Finset.mul_sum]
          congr 1
          exact Finset.sum_congr rfl (fun j _ => by ring)
        rw [Finset.sum_congr rfl (fun k _ => e1 k), Finset.sum_sub_distrib, Finset.sum_comm]
        unfold qrRest
        congr 1
        · rw [Finset.sum_ite_eq' , if_pos (Finset.mem_Ico.mpr (by push_cast; omega))]
        · rw [← Finset.sum_attach]
          apply Finset.sum_congr rfl
          intro j _
          have hj := Finset.mem_Ico.mp j.2
          rw [← Finset.mul_sum, hc2 j.1 hj.1 hj.2 t]
          congr 1
          rw [ext]
          intro k hk
          exact hc1 _ _ _ k (by omega)
    · obtain ⟨c, c1, c2⟩ := I.span b h0 (by omega)
      refine ⟨c, c1, fun t => ?_⟩
      rw [ext c (fun k hk => c1 k (by omega)) t, ← c2 t]
      unfold nextQ
      rw [if_neg hb]

end Example
end Linalg
