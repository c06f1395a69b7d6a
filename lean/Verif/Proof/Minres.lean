import Verif.Spec.Minres
import Verif.Proof.Mr
import Verif.Proof.Solvers

/-! # MINRES: the model follows the recurrence -/

set_option linter.unusedSectionVars false

namespace Linalg
open Cpp

variable {K : Type}

/-! ## The loop -/

section Loop
variable [Field K] [LinearOrder K] {V : Type} [AddCommGroup V] [Module K V]

/-- What the two MINRES loops have in common: their states are those of the recurrence. -/
structure MrLoop (B : V → V → K) (L G : V → V) (sqrt : K → K) (tol : K) (σ : Type) where
  stepf : σ → Res (Bool × σ)
  swap : σ → σ
  loop : Nat → Int → σ → Res (Int × σ)
  emb : Mr.State K V → List K → Int → σ
  loop_zero : ∀ k s, loop 0 k s = .ok (k, s)
  loop_succ : ∀ f k s, loop (f + 1) k s = (do let t ← stepf s; if t.1 then .ok (k, t.2) else loop f (k + 1) (swap t.2))
  swap_swap : ∀ s, swap (swap s) = s
  step_beta : ∀ s q c, s.beta = 0 → stepf (emb s q c) = .error .assertFail
  step_rho : ∀ s q c, s.beta ≠ 0 → Mr.rho1 B L G sqrt s = 0 → stepf (emb s q c) = .error .divZero
  step_ok : ∀ s q c, s.beta ≠ 0 → Mr.rho1 B L G sqrt s ≠ 0 →
    ∃ q', stepf (emb s q c) = .ok (decide (|(Mr.step B L G sqrt s).eta| < tol), swap (emb (Mr.step B L G sqrt s) q' (c + 1)))

variable {B : V → V → K} {L G : V → V} {sqrt : K → K} {tol : K} {σ : Type}

/-- A run that ends has done some number of passes of the recurrence. -/
theorem MrLoop.result (M : MrLoop B L G sqrt tol σ) (b x : V) {fuel : Nat} {k N : Int} {j : Nat} {q : List K} {c : Int} {st : σ}
    (h : M.loop fuel k (M.emb (Mr.seq B L G sqrt b x j) q c) = .ok (N, st)) (hj : Mr.NoBreak B L G sqrt b x j) :
    ∃ p q', p ≤ fuel ∧ Mr.NoBreak B L G sqrt b x (j + p) ∧
      (∀ i, 1 ≤ i → i < p → ¬ |(Mr.seq B L G sqrt b x (j + i)).eta| < tol) ∧
      (st = M.emb (Mr.seq B L G sqrt b x (j + p)) q' (c + p) ∨ st = M.swap (M.emb (Mr.seq B L G sqrt b x (j + p)) q' (c + p))) ∧
      ((N = k + p - 1 ∧ 1 ≤ p ∧ |(Mr.seq B L G sqrt b x (j + p)).eta| < tol) ∨
        (N = k + fuel ∧ p = fuel ∧ (1 ≤ p → ¬ |(Mr.seq B L G sqrt b x (j + p)).eta| < tol))) := by
  induction fuel generalizing k j q c with
  | zero =>
    rw [M.loop_zero] at h
    injection h with h
    injection h with h1 h2
    refine ⟨0, q, le_rfl, hj, fun i h1 h2 => by omega, Or.inl ?_, Or.inr ⟨by simp [h1], rfl, fun h => by omega⟩⟩
    simp [← h2]
  | succ fuel ih =>
    rw [M.loop_succ] at h
    by_cases hb : (Mr.seq B L G sqrt b x j).beta = 0
    · rw [M.step_beta _ _ _ hb] at h
      cases h
    by_cases hr : Mr.rho1 B L G sqrt (Mr.seq B L G sqrt b x j) = 0
    · rw [M.step_rho _ _ _ hb hr] at h
      cases h
    obtain ⟨q', e⟩ := M.step_ok _ q c hb hr
    have hj1 : Mr.NoBreak B L G sqrt b x (j + 1) := by
      intro i hi
      by_cases h : i < j
      · exact hj i h
      · obtain rfl : i = j := by omega
        exact ⟨hb, hr⟩
    rw [e, ok_bind] at h
    simp only [decide_eq_true_eq, M.swap_swap] at h
    by_cases ht : |(Mr.step B L G sqrt (Mr.seq B L G sqrt b x j)).eta| < tol
    · rw [if_pos ht] at h
      injection h with h
      injection h with h1 h2
      refine ⟨1, q', by omega, hj1, fun i h1 h2 => by omega, Or.inr ?_, Or.inl ⟨by push_cast; omega, le_rfl, ht⟩⟩
      rw [← h2]
      rfl
    · rw [if_neg ht] at h
      obtain ⟨p, q'', p1, p2, p3, p4, p5⟩ := ih (j := j + 1) h hj1
      refine ⟨p + 1, q'', by omega, by rw [show j + (p + 1) = j + 1 + p by omega]; exact p2, ?_, ?_, ?_⟩
      · intro i h1 h2
        by_cases hi : i = 1
        · subst hi; exact ht
        · have := p3 (i - 1) (by omega) (by omega)
          rwa [show j + 1 + (i - 1) = j + i by omega] at this
      · rw [show j + (p + 1) = j + 1 + p by omega, show c + ((p + 1 : Nat) : Int) = c + 1 + p by push_cast; omega]
        exact p4
      · rw [show j + (p + 1) = j + 1 + p by omega]
        rcases p5 with ⟨e1, e2, e3⟩ | ⟨e1, e2, e3⟩
        · exact Or.inl ⟨by push_cast; omega, by omega, e3⟩
        · refine Or.inr ⟨by push_cast; omega, by omega, fun _ => ?_⟩
          by_cases hp : 1 ≤ p
          · exact e3 hp
          · obtain rfl : p = 0 := by omega
            exact ht

/-- Without breakdown before the test succeeds, the run ends. -/
theorem MrLoop.ok (M : MrLoop B L G sqrt tol σ) (b x : V) {fuel : Nat} {k : Int} {j : Nat} {q : List K} {c : Int}
    (hok : ∀ i, i < fuel → (∀ l, 1 ≤ l → l ≤ i → ¬ |(Mr.seq B L G sqrt b x (j + l)).eta| < tol) →
      (Mr.seq B L G sqrt b x (j + i)).beta ≠ 0 ∧ Mr.rho1 B L G sqrt (Mr.seq B L G sqrt b x (j + i)) ≠ 0) :
    ∃ N st, M.loop fuel k (M.emb (Mr.seq B L G sqrt b x j) q c) = .ok (N, st) := by
  induction fuel generalizing k j q c with
  | zero => exact ⟨_, _, M.loop_zero _ _⟩
  | succ fuel ih =>
    obtain ⟨hb, hr⟩ := hok 0 (by omega) (fun l h1 h2 => by omega)
    obtain ⟨q', e⟩ := M.step_ok _ q c hb hr
    simp only [Nat.add_zero] at e
    rw [M.loop_succ, e, ok_bind]
    simp only [decide_eq_true_eq, M.swap_swap]
    by_cases ht : |(Mr.step B L G sqrt (Mr.seq B L G sqrt b x j)).eta| < tol
    · rw [if_pos ht]
      exact ⟨_, _, rfl⟩
    · rw [if_neg ht]
      apply ih (j := j + 1)
      intro i hi hl
      rw [show j + 1 + i = j + (i + 1) by omega]
      apply hok (i + 1) (by omega)
      intro l h1 h2
      by_cases h : l = 1
      · subst h; exact ht
      · have := hl (l - 1) (by omega) (by omega)
        rwa [show j + 1 + (l - 1) = j + l by omega] at this

end Loop

/-! ## Orthonormal vectors -/

/-- There are no `n + 1` orthonormal vectors. -/
theorem no_orthonormal [Field K] {n : Nat} (z u : Nat → Int → K)
    (h : ∀ i j, i ≤ n → j ≤ n → dotFn n (z i) (u j) = if i = j then 1 else 0) : False := by
  have li : LinearIndependent K (fun (i : Fin (n + 1)) (t : Fin n) => u i ((t : Nat) : Int)) := by
    rw [Fintype.linearIndependent_iff]
    intro g hg j
    have e : ∑ i : Fin (n + 1), g i * dotFn n (z j) (u i) = 0 := by
      have : ∀ i : Fin (n + 1), g i * dotFn n (z j) (u i)
          = ∑ t ∈ Finset.Ico (0 : Int) n, z j t * (g i * u i t) := by
        intro i
        unfold dotFn
        rw [Finset.mul_sum]
        exact Finset.sum_congr rfl (fun t _ => by ring)
      rw [Finset.sum_congr rfl (fun i _ => this i), Finset.sum_comm]
      apply Finset.sum_eq_zero
      intro t ht
      have ht := Finset.mem_Ico.mp ht
      rw [← Finset.mul_sum]
      have h1 := congrFun hg ⟨t.toNat, by omega⟩
      simp only [Finset.sum_apply, Pi.smul_apply, smul_eq_mul, Pi.zero_apply] at h1
      rw [Int.toNat_of_nonneg ht.1] at h1
      rw [h1, mul_zero]
    rw [Finset.sum_eq_single j] at e
    · rw [h j j (by omega) (by omega), if_pos rfl, mul_one] at e
      exact e
    · intro i _ hij
      rw [h j i (by omega) (by omega), if_neg (fun h => hij (Fin.ext h.symm)), mul_zero]
    · simp
  have := li.fintype_card_le_finrank
  simp at this

/-! ## Symmetric systems -/

section Symm
variable [Field K] [LinearOrder K] [IsStrictOrderedRing K] {n : Nat} {a : Int → Int → K} {G : (Int → K) → Int → K} {sqrt : K → K}

theorem mr_hyp (sa : SymmOn n a) (lG : Cg.Lin (K := K) G) (sG : ∀ u v, dotFn n (G u) v = dotFn n u (G v))
    (pG : ∀ f, ¬ ZeroOn n f → 0 < dotFn n f (G f)) (hs : IsSqrt sqrt) : Mr.Hyp (dotFn n) (matVec n a) G sqrt where
  bil := dotFn_bilin n
  linL := matVec_isLin n a
  linG := lG
  symL := dotFn_selfAdj sa
  symG := sG
  pos := by
    intro v
    by_cases h : ZeroOn n v
    · rw [dotFn_zero_left h]
    · exact (pG v h).le
  sqrt := fun t ht => (hs t ht).2

theorem mr_def (pG : ∀ f, ¬ ZeroOn n f → 0 < dotFn n f (G f)) (v : Int → K) (h : dotFn n v (G v) = 0) (y : Int → K) :
    dotFn n v y = 0 := by
  by_cases hv : ZeroOn n v
  · exact dotFn_zero_left hv y
  · exact absurd h (pG v hv).ne'

/-- Some `beta` among the first `n + 1` is zero. -/
theorem mr_finite (H : Mr.Hyp (dotFn n) (matVec n a) G sqrt) (b x : Int → K) :
    ∃ k, k ≤ n ∧ (Mr.seq (dotFn n) (matVec n a) G sqrt b x k).beta = 0 := by
  by_contra hc
  push Not at hc
  apply no_orthonormal (n := n) (Mr.lv (dotFn n) (matVec n a) G sqrt b x) (fun j => G (Mr.lv (dotFn n) (matVec n a) G sqrt b x j))
  intro i j hi hj
  by_cases h : i = j
  · subst h
    rw [if_pos rfl]
    exact Mr.lv_unit H i (hc i hi)
  · rw [if_neg h]
    rcases Nat.lt_or_gt_of_ne h with h | h
    · exact Mr.lan_rel H n hc i j h hj
    · rw [Mr.form_symm H]
      exact Mr.lan_rel H n hc j i h hi

/-- If the system has a solution there is no breakdown before `beta` vanishes, and then the residual is zero. -/
theorem mr_noBreak (H : Mr.Hyp (dotFn n) (matVec n a) G sqrt) (pG : ∀ f, ¬ ZeroOn n f → 0 < dotFn n f (G f)) (b x : Int → K)
    (hcons : ∃ f : Int → K, ∀ i : Int, 0 ≤ i → i < n → matVec n a f i = b i) (k : Nat)
    (hb : ∀ j, j < k → (Mr.seq (dotFn n) (matVec n a) G sqrt b x j).beta ≠ 0) :
    Mr.NoBreak (dotFn n) (matVec n a) G sqrt b x k := by
  obtain ⟨f, hf⟩ := hcons
  have hc : ∀ y, dotFn n (b - matVec n a x) y = dotFn n (matVec n a (f - x)) y := by
    intro y
    rw [(matVec_isLin n a).sub]
    exact dotFn_congr n (fun i h0 h1 => by simp only [Pi.sub_apply, hf i h0 h1]) (fun _ _ _ => rfl)
  induction k with
  | zero => intro j hj; omega
  | succ k ih =>
    have I := ih (fun j hj => hb j (by omega))
    intro j hj
    by_cases h : j < k
    · exact I j h
    · obtain rfl : j = k := by omega
      exact ⟨hb j (by omega), Mr.rho1_ne H (mr_def pG) (f - x) hc j I (hb j (by omega))⟩

end Symm

theorem mr_eta_zero [Field K] {V : Type} [AddCommGroup V] [Module K V] {B : V → V → K} {L G : V → V} {sqrt : K → K} {b x : V} (k : Nat)
    (h : (Mr.seq B L G sqrt b x k).beta = 0) : (Mr.seq B L G sqrt b x k).eta = 0 := by
  cases k with
  | zero => exact h
  | succ k =>
    simp only [Mr.seq, Mr.step] at h ⊢
    rw [h, zero_div, neg_zero, zero_mul]

end Linalg
