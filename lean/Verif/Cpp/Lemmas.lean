import Verif.Cpp.Basic
import Mathlib.Tactic.Ring
import Mathlib.Tactic.Linarith

/-! # Proof rules for checked vectors and loops -/

namespace Cpp

variable {α β γ σ : Type}

@[simp] theorem ok_bind (a : α) (f : α → Res β) : ((Except.ok a : Res α) >>= f) = f a := rfl
@[simp] theorem pure_eq_ok (a : α) : (pure a : Res α) = .ok a := rfl
@[simp] theorem error_bind (e : Err) (f : α → Res β) :
    ((Except.error e : Res α) >>= f) = .error e := rfl
@[simp] theorem map_ok (a : α) (f : α → β) : f <$> (Except.ok a : Res α) = .ok (f a) := rfl
@[simp] theorem bind_ok_right (r : Res α) : (r >>= fun a => Except.ok a) = r := by
  cases r <;> rfl

theorem bind_eq_ok {r : Res α} {f : α → Res β} {b : β} :
    (r >>= f) = .ok b ↔ ∃ a, r = .ok a ∧ f a = .ok b := by
  cases r with
  | ok a => simp
  | error e => simp

@[simp] theorem cassert_true {p : Prop} [Decidable p] (h : p) : cassert p = .ok () := by
  simp [cassert, h]
theorem cassert_false {p : Prop} [Decidable p] (h : ¬ p) : cassert p = .error .assertFail := by
  simp [cassert, h]
theorem cassert_ok_iff {p : Prop} [Decidable p] {u : Unit} : cassert p = .ok u ↔ p := by
  unfold cassert; split <;> simp [*]
@[simp] theorem cverify_true {p : Prop} [Decidable p] (h : p) : cverify p = .ok () := by
  simp [cverify, h]
theorem cverify_false {p : Prop} [Decidable p] (h : ¬ p) : cverify p = .error .threw := by
  simp [cverify, h]

/-! ## Reads and writes -/

theorem rd_eq_ok {v : List α} {i : Int} {x : α} :
    rd v i = .ok x ↔ 0 ≤ i ∧ v[i.toNat]? = some x := by
  unfold rd
  split
  · cases h : v[i.toNat]? with
    | some y => simp_all
    | none => simp_all
  · simp_all

theorem rd_nat {v : List α} {n : Nat} (h : n < v.length) : rd v (n : Int) = .ok v[n] := by
  rw [rd_eq_ok]; simp [h]

theorem rd_int {v : List α} {i : Int} (h0 : 0 ≤ i) (h : i < v.length) :
    rd v i = .ok (v[i.toNat]'(by omega)) := by
  rw [rd_eq_ok]; refine ⟨h0, ?_⟩; exact List.getElem?_eq_getElem _

theorem rd_oob {v : List α} {i : Int} (h : i < 0 ∨ (v.length : Int) ≤ i) :
    rd v i = .error .outOfBounds := by
  unfold rd
  split
  · have : v[i.toNat]? = none := by simp; omega
    simp [this]
  · rfl

theorem wr_nat {v : List α} {n : Nat} {x : α} (h : n < v.length) :
    wr v (n : Int) x = .ok (v.set n x) := by
  unfold wr; simp [h]

theorem wr_int {v : List α} {i : Int} {x : α} (h0 : 0 ≤ i) (h : i < v.length) :
    wr v i x = .ok (v.set i.toNat x) := by
  unfold wr; simp [h, h0]

theorem wr_oob {v : List α} {i : Int} {x : α} (h : i < 0 ∨ (v.length : Int) ≤ i) :
    wr v i x = .error .outOfBounds := by
  unfold wr; rw [if_neg]; omega

theorem vrd_nat {v : List α} {n : Nat} (h : n < v.length) : vrd v (n : Int) = .ok v[n] := by
  unfold vrd; rw [cassert_true (by exact_mod_cast h)]; exact rd_nat h

theorem vrd_int {v : List α} {i : Int} (h0 : 0 ≤ i) (h : i < v.length) :
    vrd v i = .ok (v[i.toNat]'(by omega)) := by
  unfold vrd; rw [cassert_true h]; exact rd_int h0 h

theorem vwr_nat {v : List α} {n : Nat} {x : α} (h : n < v.length) :
    vwr v (n : Int) x = .ok (v.set n x) := by
  unfold vwr; rw [cassert_true (by exact_mod_cast h)]; exact wr_nat h

theorem vwr_int {v : List α} {i : Int} {x : α} (h0 : 0 ≤ i) (h : i < v.length) :
    vwr v i x = .ok (v.set i.toNat x) := by
  unfold vwr; rw [cassert_true h]; exact wr_int h0 h

theorem mkVec_nat (n : Nat) (x : α) : mkVec (n : Int) x = .ok (List.replicate n x) := by
  unfold mkVec; simp

theorem mkVec_int {n : Int} (h : 0 ≤ n) (x : α) :
    mkVec n x = .ok (List.replicate n.toNat x) := by
  unfold mkVec; simp [h]

@[simp] theorem length_iota (n : Nat) : (iota n).length = n := by simp [iota]
@[simp] theorem getElem_iota (n k : Nat) (h : k < (iota n).length) : (iota n)[k] = (k : Int) := by
  simp [iota]
theorem mem_iota {n : Nat} {x : Int} : x ∈ iota n ↔ 0 ≤ x ∧ x < n := by
  simp only [iota, List.mem_map, List.mem_range]
  constructor
  · rintro ⟨a, h, rfl⟩; simp; omega
  · intro h; exact ⟨x.toNat, by omega, by simp; omega⟩

/-! ## Loops -/

theorem forUp_nil {a b : Int} (h : b ≤ a) (s : σ) (f : Int → σ → Res σ) :
    forUp a b s f = .ok s := by
  have : (b - a).toNat = 0 := by omega
  simp [forUp, this, forN]

theorem forUp_cons {a b : Int} (h : a < b) (s : σ) (f : Int → σ → Res σ) :
    forUp a b s f = (f a s >>= fun s' => forUp (a + 1) b s' f) := by
  obtain ⟨n, hn⟩ : ∃ n, (b - a).toNat = n + 1 := ⟨(b - a).toNat - 1, by omega⟩
  have hn' : (b - (a + 1)).toNat = n := by omega
  simp [forUp, hn, hn', forN]

/-- Invariant rule (total correctness) for counting loops. -/
theorem forUp_inv {a b : Int} (hab : a ≤ b) {f : Int → σ → Res σ} (I : Int → σ → Prop) {s : σ}
    (h0 : I a s)
    (hstep : ∀ i s, a ≤ i → i < b → I i s → ∃ s', f i s = .ok s' ∧ I (i + 1) s') :
    ∃ s', forUp a b s f = .ok s' ∧ I b s' := by
  obtain ⟨n, hn⟩ : ∃ n : Nat, b = a + n := ⟨(b - a).toNat, by omega⟩
  induction n generalizing a s with
  | zero =>
    have : a = b := by omega
    subst this
    exact ⟨s, forUp_nil (le_refl _) s f, h0⟩
  | succ n ih =>
    rw [forUp_cons (by omega)]
    obtain ⟨s', hs', hI⟩ := hstep a s (le_refl _) (by omega) h0
    rw [hs', ok_bind]
    exact ih (by omega) hI (fun i s h1 h2 => hstep i s (by omega) h2) (by omega)

/-- Invariant rule with natural-number counters from `0`. -/
theorem forUp_inv_nat {n : Nat} {f : Int → σ → Res σ} (I : Nat → σ → Prop) {s : σ}
    (h0 : I 0 s)
    (hstep : ∀ (i : Nat) s, i < n → I i s → ∃ s', f (i : Int) s = .ok s' ∧ I (i + 1) s') :
    ∃ s', forUp 0 (n : Int) s f = .ok s' ∧ I n s' := by
  obtain ⟨s', h1, h2⟩ := forUp_inv (a := 0) (b := n) (by omega) (f := f)
    (fun i s => I i.toNat s) (s := s) (by simpa using h0) (by
      intro i s h1 h2 hI
      obtain ⟨s', h, hI'⟩ := hstep i.toNat s (by omega) hI
      refine ⟨s', ?_, ?_⟩
      · rw [← h]; congr 1; omega
      · have : (i + 1).toNat = i.toNat + 1 := by omega
        rw [this]; exact hI')
  exact ⟨s', h1, by simpa using h2⟩

/-- A loop whose body fails with `e` exactly in the bad iterations fails with `e` when there is a bad one. -/
theorem forUp_fails {a b : Int} {f : Int → σ → Res σ} (I : Int → σ → Prop) (good : Int → Prop) (e : Err) {s : σ}
    (h0 : I a s)
    (hgood : ∀ i s, a ≤ i → i < b → I i s → good i → ∃ s', f i s = .ok s' ∧ I (i + 1) s')
    (hbad : ∀ i s, a ≤ i → i < b → I i s → ¬ good i → f i s = .error e)
    (hex : ∃ i, a ≤ i ∧ i < b ∧ ¬ good i) : forUp a b s f = .error e := by
  obtain ⟨k, k0, k1, hk⟩ := hex
  obtain ⟨n, hn⟩ : ∃ n : Nat, k = a + n := ⟨(k - a).toNat, by omega⟩
  induction n generalizing a s with
  | zero =>
    obtain rfl : k = a := by omega
    rw [forUp_cons k1, hbad k s le_rfl k1 h0 hk]; rfl
  | succ n ih =>
    rw [forUp_cons (by omega)]
    by_cases hg : good a
    · obtain ⟨s', e1, e2⟩ := hgood a s le_rfl (by omega) h0 hg
      rw [e1]
      exact ih e2 (fun i s hi => hgood i s (by omega)) (fun i s hi => hbad i s (by omega)) (by omega) (by omega)
    · rw [hbad a s le_rfl (by omega) h0 hg]; rfl

/-- A counting loop with natural bounds is a fold over `List.range'`. -/
theorem forUp_eq_foldlM (a n : Nat) (s : σ) (f : Int → σ → Res σ) :
    forUp (a : Int) ((a + n : Nat) : Int) s f
      = (List.range' a n).foldlM (fun s (k : Nat) => f (k : Int) s) s := by
  induction n generalizing a s with
  | zero => simp [forUp_nil]
  | succ n ih =>
    rw [forUp_cons (by omega), List.range'_succ, List.foldlM_cons]
    congr 1; funext s'
    have := ih (a + 1) s'
    rw [← this]; congr 1; push_cast; ring

theorem forUp_zero_eq_foldlM (n : Nat) (s : σ) (f : Int → σ → Res σ) :
    forUp 0 (n : Int) s f = (List.range n).foldlM (fun s (k : Nat) => f (k : Int) s) s := by
  have := forUp_eq_foldlM 0 n s f
  simpa [List.range_eq_range'] using this

/-- Two loops with bodies that agree on the range are equal. -/
theorem forUp_congr {a b : Int} {f g : Int → σ → Res σ} (s : σ)
    (h : ∀ i s, a ≤ i → i < b → f i s = g i s) : forUp a b s f = forUp a b s g := by
  by_cases hab : a ≤ b
  · obtain ⟨n, hn⟩ : ∃ n : Nat, b = a + n := ⟨(b - a).toNat, by omega⟩
    induction n generalizing a s with
    | zero => rw [forUp_nil (by omega), forUp_nil (by omega)]
    | succ n ih =>
      rw [forUp_cons (by omega), forUp_cons (by omega), h a s (le_refl _) (by omega)]
      congr 1; funext s'
      exact ih s' (fun i s h1 h2 => h i s (by omega) h2) (by omega) (by omega)
  · rw [forUp_nil (by omega), forUp_nil (by omega)]

/-! ## Folds -/

theorem foldlM_inv {l : List β} {f : σ → β → Res σ} (I : List β → σ → Prop) {s : σ}
    (h0 : I [] s)
    (hstep : ∀ pre x post s, l = pre ++ x :: post → I pre s →
      ∃ s', f s x = .ok s' ∧ I (pre ++ [x]) s') :
    ∃ s', l.foldlM f s = .ok s' ∧ I l s' := by
  suffices H : ∀ (post pre : List β) (s : σ), l = pre ++ post → I pre s →
      ∃ s', post.foldlM f s = .ok s' ∧ I l s' from H l [] s rfl h0
  intro post
  induction post with
  | nil => intro pre s hl hI; refine ⟨s, rfl, ?_⟩; rw [hl]; simpa using hI
  | cons x post ih =>
    intro pre s hl hI
    obtain ⟨s', h1, h2⟩ := hstep pre x post s hl hI
    rw [List.foldlM_cons, h1, ok_bind]
    exact ih (pre ++ [x]) s' (by simp [hl]) h2

/-- A fold whose body always succeeds (under an invariant) is the pure fold. -/
theorem foldlM_eq_foldl {l : List β} {f : σ → β → Res σ} {g : σ → β → σ} (P : σ → Prop) {s : σ}
    (h0 : P s)
    (hstep : ∀ x ∈ l, ∀ s, P s → f s x = .ok (g s x) ∧ P (g s x)) :
    l.foldlM f s = .ok (l.foldl g s) ∧ P (l.foldl g s) := by
  induction l generalizing s with
  | nil => exact ⟨rfl, h0⟩
  | cons x l ih =>
    obtain ⟨h1, h2⟩ := hstep x (by simp) s h0
    rw [List.foldlM_cons, h1, ok_bind, List.foldl_cons]
    exact ih h2 (fun y hy => hstep y (by simp [hy]))

theorem foldlM_congr {l : List β} {f g : σ → β → Res σ} (s : σ)
    (h : ∀ x ∈ l, ∀ s, f s x = g s x) : l.foldlM f s = l.foldlM g s := by
  induction l generalizing s with
  | nil => rfl
  | cons x l ih =>
    rw [List.foldlM_cons, List.foldlM_cons, h x (by simp)]
    congr 1; funext s'
    exact ih s' (fun y hy => h y (by simp [hy]))

theorem foldlM_append' {l l' : List β} {f : σ → β → Res σ} (s : σ) :
    (l ++ l').foldlM f s = (l.foldlM f s >>= fun s' => l'.foldlM f s') := by
  simp [List.foldlM_append]

theorem foldlM_flatten {ls : List (List β)} {f : σ → β → Res σ} (s : σ) :
    ls.flatten.foldlM f s = ls.foldlM (fun s l => l.foldlM f s) s := by
  induction ls generalizing s with
  | nil => rfl
  | cons l ls ih =>
    simp only [List.flatten_cons, List.foldlM_append, List.foldlM_cons]
    congr 1; funext s'; exact ih s'

end Cpp
