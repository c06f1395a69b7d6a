import Verif.Spec.Random
import Verif.Props.Vector
import Verif.Props.Examples
import Verif.Props.SparseSolve
import Mathlib.LinearAlgebra.FiniteDimensional.Lemmas
import Mathlib.LinearAlgebra.Dimension.Constructions
import Mathlib.Tactic.Linarith
import Mathlib.Tactic.FieldSimp

/-!
# Random vectors and the examples that use them (C115)
-/

namespace Linalg
open Cpp

namespace Rng
variable {σ α : Type}

/-- The state the engine starts from. -/
def start (R : Rng σ α) (dev : σ) (seed : Int) : σ := if 0 ≤ seed then R.seed seed else dev

/-- **C115.**  `Randomize` writes the numbers of the engine, in order, to the elements of the vector and to nothing else. -/
theorem C115_randomize [Zero α] [LE α] [DecidableLE α] (R : Rng σ α) (dev : σ) (v : View) (lo hi : α) (seed : Int) (m : List α) (hv : v.InMem m)
    (hl : lo ≤ hi) :
    ∃ m', R.randomize dev v lo hi seed m = .ok m' ∧
      VecIs m' m.length (fun p => if v.Has p then R.number lo hi (R.start dev seed) (p - v.off).toNat else vecAt m p) := by
  have h1 := hv.off_nonneg
  have h2 := hv.fits
  refine ⟨vecFn m.length (fun p => if v.Has p then R.number lo hi (R.start dev seed) (p - v.off).toNat else vecAt m p), ?_, is_vecFn _ _⟩
  unfold randomize limits
  rw [if_pos hl, ok_bind]
  simp only [ge_iff_le]
  change (forUp 0 v.size (m, R.start dev seed) _ >>= _) = _
  obtain ⟨S, hS⟩ : ∃ S : Int → List α × σ, S = fun k : Int =>
      (vecFn m.length (fun p => if v.off ≤ p ∧ p < v.off + k then R.number lo hi (R.start dev seed) (p - v.off).toNat else vecAt m p),
        R.stateAt lo hi (R.start dev seed) k.toNat) := ⟨_, rfl⟩
  have e0 : (m, R.start dev seed) = S 0 := by
    rw [hS]
    refine Prod.ext ?_ rfl
    simp only
    conv_lhs => rw [eq_vecFn_vecAt m]
    exact vecFn_congr (fun p _ _ => by rw [if_neg (by omega)])
  rw [e0, forUp_seq hv.size_nonneg S, hS]
  · rfl
  · intro i h0 h3
    rw [hS]
    simp only
    rw [wr_vecFn _ (by omega) (by omega), ok_bind]
    have e1 : (i + 1).toNat = i.toNat + 1 := by omega
    rw [e1]
    refine congrArg Except.ok (Prod.ext ?_ rfl)
    simp only
    apply vecFn_congr
    intro p _ _
    by_cases hp : p = v.off + i
    · subst hp
      rw [if_pos rfl, if_pos (by omega)]
      rw [show (v.off + i - v.off).toNat = i.toNat by omega]
      rfl
    · rw [if_neg hp]
      by_cases hq : v.off ≤ p ∧ p < v.off + i
      · rw [if_pos hq, if_pos (by omega)]
      · rw [if_neg hq, if_neg (by omega)]

/-- **C115.**  Every element is between the limits. -/
theorem C115_range [Zero α] [LE α] [DecidableLE α] (R : Rng σ α) (hR : R.Within) (dev : σ) (v : View) (lo hi : α) (seed : Int) (m m' : List α)
    (hv : v.InMem m) (h : R.randomize dev v lo hi seed m = .ok m') :
    m'.length = m.length ∧ (∀ p, v.Has p → lo ≤ vecAt m' p ∧ vecAt m' p ≤ hi) ∧ ∀ p : Int, 0 ≤ p → p < m.length → ¬ v.Has p → vecAt m' p = vecAt m p := by
  by_cases hl : lo ≤ hi
  · obtain ⟨m1, e1, h1⟩ := C115_randomize R dev v lo hi seed m hv hl
    rw [h] at e1
    simp only [Except.ok.injEq] at e1
    subst e1
    refine ⟨by have := h1.length_eq; omega, ?_, ?_⟩
    · intro p hp
      have hp' := hp
      unfold View.Has at hp'
      have := hv.off_nonneg
      have := hv.fits
      rw [h1.vecAt_eq (by omega) (by omega)]
      simp only [if_pos hp]
      exact hR lo hi _ hl
    · intro p h2 h3 hp
      rw [h1.vecAt_eq h2 h3]
      simp only [if_neg hp]
  · unfold randomize limits at h
    rw [if_neg hl] at h
    cases h

/-- **C115.**  Limits in the wrong order are undefined. -/
theorem C115_limits [LE α] [DecidableLE α] (R : Rng σ α) (dev : σ) (v : View) (lo hi : α) (hl : ¬ lo ≤ hi) (seed : Int) (m : List α) :
    R.randomize dev v lo hi seed m = .error .undefinedBehaviour := by
  unfold randomize limits
  rw [if_neg hl]
  rfl

/-- **C115.**  With a seed that is not negative the elements depend on the seed and the limits only: not on what the device gives, not on what was there, not
on how many more elements are filled. -/
theorem C115_reproducible [Zero α] [LE α] [DecidableLE α] (R : Rng σ α) (dev dev' : σ) (v v' : View) (lo hi : α) (seed : Int) (hs : 0 ≤ seed)
    (m m' r r' : List α) (hv : v.InMem m) (hv' : v'.InMem m') (h : R.randomize dev v lo hi seed m = .ok r)
    (h' : R.randomize dev' v' lo hi seed m' = .ok r') (i : Int) (h0 : 0 ≤ i) (h1 : i < v.size) (h2 : i < v'.size) :
    vecAt r (v.off + i) = vecAt r' (v'.off + i) := by
  by_cases hl : lo ≤ hi
  · obtain ⟨m1, e1, k1⟩ := C115_randomize R dev v lo hi seed m hv hl
    obtain ⟨m2, e2, k2⟩ := C115_randomize R dev' v' lo hi seed m' hv' hl
    rw [h] at e1
    rw [h'] at e2
    simp only [Except.ok.injEq] at e1 e2
    subst e1 e2
    have := hv.off_nonneg
    have := hv.fits
    have := hv'.off_nonneg
    have := hv'.fits
    rw [k1.vecAt_eq (by omega) (by omega), k2.vecAt_eq (by omega) (by omega)]
    rw [if_pos (by unfold View.Has; omega), if_pos (by unfold View.Has; omega)]
    unfold start
    rw [if_pos hs, if_pos hs, show (v.off + i - v.off).toNat = (v'.off + i - v'.off).toNat by omega]
  · rw [C115_limits R dev v lo hi hl seed m] at h
    cases h

/-- **C115.**  Without a seed the elements are the numbers that follow from the state the device has given. -/
theorem C115_device [LE α] [DecidableLE α] (R R' : Rng σ α) (hd : R.draw = R'.draw) (dev : σ) (v : View) (lo hi : α) (seed seed' : Int) (hs : seed < 0) (hs' : seed' < 0)
    (m : List α) : R.randomize dev v lo hi seed m = R'.randomize dev v lo hi seed' m := by
  unfold randomize
  rw [if_neg (by omega), if_neg (by omega), hd]

/-- **C115.**  The member function takes whole numbers as limits. -/
theorem C115_member [Zero α] [LE α] [DecidableLE α] [IntCast α] (hc : ∀ a b : Int, a ≤ b → (a : α) ≤ b) (R : Rng σ α) (hR : R.Within) (dev : σ) (v : View)
    (lo hi seed : Int) (hl : lo ≤ hi) (m : List α) (hv : v.InMem m) :
    ∃ m', R.randomizeMember dev v lo hi seed m = .ok m' ∧ R.randomize dev v (lo : α) (hi : α) seed m = .ok m' ∧
      ∀ p, v.Has p → (lo : α) ≤ vecAt m' p ∧ vecAt m' p ≤ (hi : α) := by
  obtain ⟨m', e, _⟩ := C115_randomize R dev v (lo : α) (hi : α) seed m hv (hc _ _ hl)
  exact ⟨m', e, e, (C115_range R hR dev v _ _ seed m m' hv e).2.1⟩

/-- **C115.**  `random_mat(n, m)` gives an `n × m` matrix with entries from -1 to 1, column by column in the order of the engine. -/
theorem C115_matrix [Field α] [LinearOrder α] [IsStrictOrderedRing α] (R : Rng σ α) (hR : R.Within) (dev : σ) (n m : Int) :
    (0 ≤ n → 0 ≤ m → ∃ D, R.randomMat dev n m = .ok D ∧ D.Is n m (fun i j => R.number (-1) 1 dev (i + j * n).toNat) ∧
      ∀ i j, 0 ≤ i → i < n → 0 ≤ j → j < m → -1 ≤ D.entry i j ∧ D.entry i j ≤ 1) ∧
    (n < 0 ∨ m < 0 → ∃ e, R.randomMat dev n m = .error e) := by
  have hl : (-1 : α) ≤ 1 := by linarith [zero_le_one (α := α)]
  constructor
  · intro hn hm
    obtain ⟨N, rfl⟩ : ∃ N : Nat, n = N := ⟨n.toNat, by omega⟩
    obtain ⟨M, rfl⟩ : ∃ M : Nat, m = M := ⟨m.toNat, by omega⟩
    unfold randomMat
    rw [show ((N : Int) * M) = ((N * M : Nat) : Int) by push_cast; rfl, mkVec_nat, ok_bind]
    obtain ⟨m', e, h⟩ := C115_randomize R dev ⟨0, ((List.replicate (N * M) (0 : α)).length : Int)⟩ (-1) 1 (-1) (List.replicate (N * M) (0 : α))
      ⟨by simp, Int.natCast_nonneg _, by simp⟩ hl
    rw [e, ok_bind]
    have hlen : m'.length = N * M := by have := h.length_eq; simp only [List.length_replicate] at this; exact_mod_cast this
    have key : Dense.Is (⟨N, M, m'⟩ : Dense α) N M (fun i j => R.number (-1) 1 dev (i + j * N).toNat) := by
      refine ⟨⟨by simp, by simp, by simp [hlen]⟩, rfl, rfl, ?_⟩
      intro i j h0 h1 h2 h3
      obtain ⟨a, rfl⟩ : ∃ a : Nat, i = a := ⟨i.toNat, by omega⟩
      obtain ⟨b, rfl⟩ : ∃ b : Nat, j = b := ⟨j.toNat, by omega⟩
      have hlt := Dense.idx_lt (m := N) (n := M) (i := a) (j := b) (by omega) (by omega)
      unfold Dense.get
      rw [Dense.checkIdx_ok h0 h1 h2 h3, ok_bind]
      have e3 : (a : Int) + b * N = ((a + b * N : Nat) : Int) := by push_cast; rfl
      have := h.get_eq ((a : Int) + b * N) (by omega) (by rw [e3, List.length_replicate]; exact_mod_cast hlt)
      simp only at this ⊢
      rw [this, if_pos (by unfold View.Has; simp only [List.length_replicate]; omega)]
      simp [start]
    refine ⟨⟨N, M, m'⟩, ?_, key, ?_⟩
    · unfold Dense.ofData
      rw [cassert_true (by simp), ok_bind, cassert_true (by simp), ok_bind, cassert_true (by simp [hlen]), ok_bind]
    · intro i j h0 h1 h2 h3
      unfold Dense.entry
      rw [key.get_eq i j h0 h1 h2 h3]
      exact hR _ _ _ hl
  · intro h
    by_cases hnm : 0 ≤ n * m
    · unfold randomMat
      rw [mkVec_int hnm, ok_bind]
      obtain ⟨m', e, _⟩ := C115_randomize R dev ⟨0, ((List.replicate (n * m).toNat (0 : α)).length : Int)⟩ (-1) 1 (-1) (List.replicate (n * m).toNat (0 : α))
        ⟨by simp, by simp, by simp⟩ hl
      rw [e, ok_bind]
      unfold Dense.ofData
      refine ⟨.assertFail, ?_⟩
      by_cases h1 : n ≥ 0
      · rw [cassert_true h1, ok_bind, cassert_false (by omega)]
        rfl
      · rw [cassert_false h1]
        rfl
    · unfold randomMat mkVec
      rw [if_neg hnm]
      exact ⟨_, rfl⟩

/-! ### One implementation -/

/-- The engine never reaches 0. -/
theorem minstd_step (s : Nat) (h0 : 1 ≤ s) (h1 : s < 2147483647) : 1 ≤ 16807 * s % 2147483647 ∧ 16807 * s % 2147483647 < 2147483647 := by
  omega

theorem minstd_inj (s t : Nat) (h0 : 1 ≤ s) (h1 : s < 2147483647) (h2 : 1 ≤ t) (h3 : t < 2147483647)
    (h : 16807 * s % 2147483647 = 16807 * t % 2147483647) : s = t := by
  omega

theorem minstd_seed (s : Int) (h0 : 0 ≤ s) : 1 ≤ minstd.seed s ∧ minstd.seed s < 2147483647 := by
  unfold minstd
  simp only
  split <;> omega

theorem minstd_digits (x z y w : Nat) (h0 : 1 ≤ x) (h1 : x < 2147483647) (h2 : 1 ≤ y) (h3 : y < 2147483647)
    (h : (x : Rat) - 1 + ((z : Rat) - 1) * 2147483646 = (y : Rat) - 1 + ((w : Rat) - 1) * 2147483646) : x = y := by
  have h' : (x : Int) + (z : Int) * 2147483646 = (y : Int) + (w : Int) * 2147483646 := by
    have : (x : Rat) + (z : Rat) * 2147483646 = (y : Rat) + (w : Rat) * 2147483646 := by linarith
    exact_mod_cast this
  omega

/-- The seeds that lead to the state 1. -/
def One (s : Int) : Prop := s = 0 ∨ s = 1 ∨ s = 2147483647

/-- **C115.**  With the engine of libstdc++ two seeds give different numbers, except 0, 1 and 2147483647, which all give the same ones. -/
theorem C115_seeds (dev dev' : Nat) (v : View) (m : List Rat) (hv : v.InMem m) (hne : 0 < v.size) (lo hi : Rat) (hl : lo < hi) (s t : Int)
    (hs0 : 0 ≤ s) (hs1 : s < 2147483648) (ht0 : 0 ≤ t) (ht1 : t < 2147483648) :
    minstd.randomize dev v lo hi s m = minstd.randomize dev' v lo hi t m ↔ s = t ∨ (One s ∧ One t) := by
  have hseed : (minstd.seed s = minstd.seed t) ↔ s = t ∨ (One s ∧ One t) := by
    unfold minstd One
    simp only
    split <;> split <;> omega
  rw [← hseed]
  constructor
  · intro h
    obtain ⟨m1, e1, k1⟩ := C115_randomize minstd dev v lo hi s m hv (le_of_lt hl)
    obtain ⟨m2, e2, k2⟩ := C115_randomize minstd dev' v lo hi t m hv (le_of_lt hl)
    rw [e1, e2] at h
    simp only [Except.ok.injEq] at h
    subst h
    have o0 := hv.off_nonneg
    have o1 := hv.fits
    have q := (k1.vecAt_eq (i := v.off) (by omega) (by omega)).symm.trans (k2.vecAt_eq (i := v.off) (by omega) (by omega))
    rw [if_pos (by unfold View.Has; omega), if_pos (by unfold View.Has; omega)] at q
    rw [show (v.off - v.off).toNat = 0 by omega] at q
    unfold start at q
    rw [if_pos hs0, if_pos ht0] at q
    obtain ⟨a0, a1⟩ := minstd_seed s hs0
    obtain ⟨b0, b1⟩ := minstd_seed t ht0
    obtain ⟨a, ha⟩ : ∃ a, a = minstd.seed s := ⟨_, rfl⟩
    obtain ⟨b, hb⟩ : ∃ b, b = minstd.seed t := ⟨_, rfl⟩
    rw [← ha] at q a0 a1 ⊢
    rw [← hb] at q b0 b1 ⊢
    unfold number at q
    simp only [stateAt, minstd] at q
    have hd : hi - lo ≠ 0 := by intro h0; linarith
    have q2 := mul_left_cancel₀ hd (add_left_cancel q)
    have q3 := (div_left_inj' (by norm_num : (2147483646 * 2147483646 : Rat) ≠ 0)).mp q2
    obtain ⟨c0, c1⟩ := minstd_step a a0 a1
    obtain ⟨d0, d1⟩ := minstd_step b b0 b1
    apply minstd_inj a b a0 a1 b0 b1
    exact minstd_digits _ _ _ _ c0 c1 d0 d1 q3
  · intro h
    unfold randomize
    rw [if_pos hs0, if_pos ht0, h]

/-- **C115.**  The numbers of this engine are between the limits, and below the upper one if the limits differ. -/
theorem C115_minstd (lo hi : Rat) (s : Int) (hs : 0 ≤ s) (hl : lo < hi) (k : Nat) :
    lo ≤ minstd.number lo hi (minstd.seed s) k ∧ minstd.number lo hi (minstd.seed s) k < hi := by
  have hst : ∀ k, 1 ≤ minstd.stateAt lo hi (minstd.seed s) k ∧ minstd.stateAt lo hi (minstd.seed s) k < 2147483647 := by
    intro k
    induction k with
    | zero => exact minstd_seed s hs
    | succ k ih =>
      obtain ⟨a0, a1⟩ := minstd_step _ ih.1 ih.2
      exact minstd_step _ a0 a1
  obtain ⟨h0, h1⟩ := hst k
  unfold number
  obtain ⟨x, hx⟩ : ∃ x, x = minstd.stateAt lo hi (minstd.seed s) k := ⟨_, rfl⟩
  rw [← hx] at h0 h1 ⊢
  simp only [minstd]
  obtain ⟨a0, a1⟩ := minstd_step _ h0 h1
  obtain ⟨b0, b1⟩ := minstd_step _ a0 a1
  obtain ⟨a, ha⟩ : ∃ a, a = 16807 * x % 2147483647 := ⟨_, rfl⟩
  rw [← ha] at a0 a1 b0 b1 ⊢
  obtain ⟨b, hb⟩ : ∃ b, b = 16807 * a % 2147483647 := ⟨_, rfl⟩
  rw [← hb] at b0 b1 ⊢
  have p0 : (1 : Rat) ≤ a := by exact_mod_cast a0
  have p1 : (a : Rat) ≤ 2147483646 := by exact_mod_cast (by omega : a ≤ 2147483646)
  have p2 : (1 : Rat) ≤ b := by exact_mod_cast b0
  have p3 : (b : Rat) ≤ 2147483646 := by exact_mod_cast (by omega : b ≤ 2147483646)
  have u0 : (0 : Rat) ≤ ((a : Rat) - 1 + ((b : Rat) - 1) * 2147483646) / (2147483646 * 2147483646) := by
    apply div_nonneg
    · linarith
    · norm_num
  have u1 : ((a : Rat) - 1 + ((b : Rat) - 1) * 2147483646) / (2147483646 * 2147483646) < 1 := by
    rw [div_lt_one (by norm_num)]
    linarith
  constructor
  · have := mul_nonneg (sub_nonneg.mpr (le_of_lt hl)) u0
    linarith
  · have := mul_lt_mul_of_pos_left u1 (sub_pos.mpr hl)
    linarith

/-- The number libstdc++ draws first with seed 1, which is that for seed 0: about 0.131538. -/
example : minstd.randomize 7 ⟨1, 1⟩ 0 1 0 [5, 5, 5] = minstd.randomize 8 ⟨1, 1⟩ 0 1 1 [5, 5, 5] ∧
    minstd.number 0 1 (minstd.seed 1) 0 = (16807 - 1 + (282475249 - 1) * 2147483646 : Rat) / (2147483646 * 2147483646) ∧
    minstd.randomize 7 ⟨1, 1⟩ 0 1 0 [5, 5, 5] ≠ minstd.randomize 7 ⟨1, 1⟩ 0 1 2 [5, 5, 5] := by decide +kernel

/-- An engine that draws whole numbers, limits included. -/
def counter : Rng Int Int := ⟨id, fun lo hi s => (lo + s % (hi - lo + 1), s + 1)⟩

/-- It keeps its promise. -/
theorem counter_within : counter.Within := by
  intro lo hi s h
  have h1 := Int.emod_nonneg s (by omega : hi - lo + 1 ≠ 0)
  have h2 := Int.emod_lt_of_pos s (by omega : 0 < hi - lo + 1)
  simp only [counter]
  omega

/-- Runs of `Randomize` and of the member function. -/
example : counter.randomize 9 ⟨1, 3⟩ 5 7 4 [0, 0, 0, 0, 0] = .ok [0, 6, 7, 5, 0] ∧ counter.randomize 9 ⟨1, 3⟩ 5 7 (-1) [0, 0, 0, 0, 0] = .ok [0, 5, 6, 7, 0] ∧
    counter.randomizeMember 9 ⟨0, 2⟩ 0 1 3 [8, 8, 8] = .ok [1, 0, 8] ∧ counter.randomize 9 ⟨0, 1⟩ 1 0 3 [8] = .error .undefinedBehaviour := by
  decide +kernel

/-- A random matrix. -/
example : (⟨fun s => s.toNat, fun lo hi s => (lo + (hi - lo) * (s % 5 : Nat) / 4, s + 1)⟩ : Rng Nat Rat).randomMat 0 2 3 = .ok ⟨2, 3, [-1, -1/2, 0, 1/2, 1, -1]⟩ ∧
    (minstd.randomMat 0 (-1) 3) = .error .threw ∧ (minstd.randomMat 0 (-1) (-1)) = .error .assertFail := by decide +kernel

end Rng

namespace Example
open Rng
variable {σ K : Type} [Field K] [LinearOrder K] [IsStrictOrderedRing K]

omit [LinearOrder K] [IsStrictOrderedRing K] in
/-- More columns than rows are dependent. -/
theorem dependent_of_wide (m n : Nat) (h : m < n) (a : Int → Int → K) : ¬ IndepCols (m : Int) (n : Int) a := by
  intro hI
  let f : (Fin n → K) →ₗ[K] (Fin m → K) :=
    { toFun := fun c t => ∑ j : Fin n, a (t : Int) (j : Int) * c j
      map_add' := by intro x y; funext t; simp [mul_add, Finset.sum_add_distrib]
      map_smul' := by
        intro r x; funext t
        simp only [Pi.smul_apply, smul_eq_mul, RingHom.id_apply, Finset.mul_sum]
        exact Finset.sum_congr rfl (fun _ _ => by ring) }
  have hk := LinearMap.ker_ne_bot_of_finrank_lt (f := f) (by simpa using h)
  obtain ⟨c, hc, hne⟩ := (Submodule.ne_bot_iff _).mp hk
  apply hne
  let c' : Int → K := fun j => if hj : 0 ≤ j ∧ j < n then c ⟨j.toNat, by omega⟩ else 0
  have hc' : ∀ j : Fin n, c' (j : Int) = c j := by
    intro j
    simp only [c']
    rw [dif_pos ⟨by omega, by omega⟩]
    congr 1
  have hz := hI c' (by
    intro t h0 h1
    unfold matVec
    rw [← SparseSolver.sum_fin n (fun j => a t j * c' j)]
    simp only [hc']
    have := congrFun (LinearMap.mem_ker.mp hc) ⟨t.toNat, by omega⟩
    simp only [f, LinearMap.coe_mk, AddHom.coe_mk, Pi.zero_apply] at this
    rw [show ((t.toNat : Nat) : Int) = t by omega] at this
    exact this)
  funext j
  rw [← hc' j]
  exact hz _ (by omega) (by omega)

/-- **C115.**  `test_QR(m, n)` with more columns than rows stops at the assertion against a division by zero, whatever the random numbers are. -/
theorem C115_wide (sqrt : K → K) (hs : ∀ s, 0 ≤ s → sqrt s * sqrt s = s) (R : Rng σ K) (hR : R.Within) (dev : σ) (m n : Int) (hm : 0 ≤ m) (h : m < n) :
    testQr sqrt R dev m n = .error .assertFail := by
  obtain ⟨D, e, hD, _⟩ := (C115_matrix R hR dev m n).1 hm (by omega)
  unfold testQr
  rw [e, ok_bind]
  apply (C67_succeeds sqrt hs D hD.wf).2
  rw [hD.rows_eq, hD.cols_eq]
  obtain ⟨M, rfl⟩ : ∃ M : Nat, m = M := ⟨m.toNat, by omega⟩
  obtain ⟨N, rfl⟩ : ∃ N : Nat, n = N := ⟨n.toNat, by omega⟩
  exact dependent_of_wide M N (by omega) _

/-- **C115.**  That is what `time_QR` does, at its first size already. -/
theorem C115_timeQR (sqrt : K → K) (hs : ∀ s, 0 ≤ s → sqrt s * sqrt s = s) (R : Rng σ K) (hR : R.Within) (dev : Int → σ) :
    timeQr sqrt R dev = .error .assertFail ∧
      ∀ i ∈ sizesFrom 2000 10, testQr sqrt R (dev i) i (i * 3 / 2) = .error .assertFail := by
  have hpos : ∀ (k : Nat) (i : Int), 10 ≤ i → ∀ j ∈ sizesFrom k i, 10 ≤ j := by
    intro k
    induction k with
    | zero => intro i _ j hj; simp [sizesFrom] at hj
    | succ k ih =>
      intro i hi j hj
      unfold sizesFrom at hj
      split at hj
      · rcases List.mem_cons.mp hj with rfl | hj
        · exact hi
        · exact ih _ (by omega) j hj
      · simp at hj
  have hall : ∀ i ∈ sizesFrom 2000 10, testQr sqrt R (dev i) i (i * 3 / 2) = .error .assertFail := by
    intro i hi
    have := hpos 2000 10 (le_refl _) i hi
    exact C115_wide sqrt hs R hR (dev i) i _ (by omega) (by omega)
  refine ⟨?_, hall⟩
  unfold timeQr
  have e : sizesFrom 2000 10 = 10 :: sizesFrom 1999 (10 * 3 / 2) := by
    rw [sizesFrom, if_pos (by norm_num)]
  rw [e] at hall ⊢
  change (testQr sqrt R (dev 10) 10 (10 * 3 / 2) >>= _) >>= _ = _
  rw [hall 10 (by simp)]
  rfl

/-- **C115.**  `test_LU(n)` factors its random matrix or divides by zero; it does the latter exactly when a leading block of the matrix is in the way. -/
theorem C115_testLU (R : Rng σ K) (hR : R.Within) (dev : σ) (n : Int) (hn : 0 ≤ n) :
    (∃ l u, UnitLower n l ∧ Upper n u ∧ IsProd n (fun i j => R.number (-1) 1 dev (i + j * n).toNat) l u ∧ (∀ i, 0 ≤ i → i + 1 < n → u i i ≠ 0) ∧
      ∃ L U, testLu R dev n = .ok (L, U) ∧ L.Is n n l ∧ U.Is n n u) ∨
    ((¬ ∃ l u, UnitLower n l ∧ Upper n u ∧ IsProd n (fun i j => R.number (-1) 1 dev (i + j * n).toNat) l u ∧ ∀ i, 0 ≤ i → i + 1 < n → u i i ≠ 0) ∧
      testLu R dev n = .error .divZero) := by
  obtain ⟨D, e, hD, _⟩ := (C115_matrix R hR dev n n).1 hn hn
  have hent : ∀ l u : Int → Int → K, IsProd n (fun i j => R.number (-1) 1 dev (i + j * n).toNat) l u ↔ IsProd n D.entry l u := by
    intro l u
    have : ∀ i j, 0 ≤ i → i < n → 0 ≤ j → j < n → D.entry i j = R.number (-1) 1 dev (i + j * n).toNat := by
      intro i j h0 h1 h2 h3
      unfold Dense.entry
      rw [hD.get_eq i j h0 h1 h2 h3]
    unfold IsProd
    constructor <;> intro h i j h0 h1 h2 h3
    · rw [this i j h0 h1 h2 h3]; exact h i j h0 h1 h2 h3
    · exact (h i j h0 h1 h2 h3).trans (this i j h0 h1 h2 h3)
  simp only [hent]
  have hS := C47_succeeds D hD.wf (by rw [hD.rows_eq, hD.cols_eq])
  rw [hD.rows_eq] at hS
  have et : testLu R dev n = luDecomp D := by
    unfold testLu
    rw [e, ok_bind]
  rw [et]
  by_cases hx : ∃ l u, UnitLower n l ∧ Upper n u ∧ IsProd n D.entry l u ∧ ∀ i, 0 ≤ i → i + 1 < n → u i i ≠ 0
  · left
    obtain ⟨L, U, hLU⟩ := hS.1 hx
    obtain ⟨h1, h2, h3, h4, h5, h6⟩ := C47_factor D hD.wf (by rw [hD.rows_eq, hD.cols_eq]) L U hLU
    rw [hD.rows_eq] at h1 h2 h3 h4 h5 h6
    exact ⟨L.entry, U.entry, h3, h4, h5, h6, L, U, hLU, h1, h2⟩
  · right
    exact ⟨hx, hS.2 hx⟩

/-! ### The fixed runs -/

/-- `qr_decomp` up to the square root. -/
def qrPre (A Q : Dense Rat) (i : Int) (s : List Rat × Dense Rat) : Res ((List Rat × Dense Rat) × Rat) := do
  let _ ← A.getColView i
  let qi ← Q.getColView i
  let s ← forUp 0 i s (fun j s => qrProj A Q i j s)
  let q ← viewElems qi s.1
  let d ← Vec.inner q q
  .ok (s, d)

/-- `qr_decomp` after the square root. -/
def qrPost (A Q : Dense Rat) (i : Int) (s : List Rat × Dense Rat) (nrm : Rat) : Res (List Rat × Dense Rat) := do
  let av ← A.getColView i
  let qi ← Q.getColView i
  let m ← qi.divScalar nrm s.1
  let a ← viewElems av A.data
  let q ← viewElems qi m
  let d ← Vec.inner a q
  let R ← s.2.put i i d
  .ok (m, R)

theorem qrStep_split (sqrt : Rat → Rat) (A Q : Dense Rat) (i : Int) (s : List Rat × Dense Rat) (t : List Rat × Dense Rat) (d : Rat)
    (h : qrPre A Q i s = .ok (t, d)) : qrStep sqrt A Q i s = qrPost A Q i t (sqrt d) := by
  unfold qrPre at h
  simp only [bind_eq_ok] at h
  obtain ⟨av, e1, qi, e2, s1, e3, q, e4, d1, e5, e6⟩ := h
  simp only [Except.ok.injEq, Prod.mk.injEq] at e6
  obtain ⟨rfl, rfl⟩ := e6
  unfold qrStep qrPost Vec.l2Norm
  simp only [e1, e2, e3, e4, e5, ok_bind]

/-- **C115.**  `QR()` shows what it says: the factors of its matrix, and the solution of its least-squares problem.  All that is used of the square root is that
those of 25 and 1 are 5 and 1. -/
theorem C115_QR (sqrt : Rat → Rat) (h25 : sqrt 25 = 5) (h1 : sqrt 1 = 1) :
    qr sqrt = .ok ([⟨3, 2, [3, 4, 0, -6, -8, 1]⟩, ⟨3, 2, [3/5, 4/5, 0, 0, 0, 1]⟩, ⟨2, 2, [5, 0, -10, 1]⟩, ⟨3, 2, [3, 4, 0, -6, -8, 1]⟩, ⟨2, 2, [1, 0, 0, 1]⟩],
      [[-1, 7, 2], [5, 2], [3, 4, 2]]) := by
  have e : qrDecomp sqrt (⟨3, 2, [3, 4, 0, -6, -8, 1]⟩ : Dense Rat) = .ok (⟨3, 2, [3/5, 4/5, 0, 0, 0, 1]⟩, ⟨2, 2, [5, 0, -10, 1]⟩) := by
    unfold qrDecomp
    rw [show Dense.zeros (⟨3, 2, [3, 4, 0, -6, -8, 1]⟩ : Dense Rat).cols (⟨3, 2, [3, 4, 0, -6, -8, 1]⟩ : Dense Rat).cols = .ok (⟨2, 2, [0, 0, 0, 0]⟩ : Dense Rat) by
      decide +kernel, ok_bind]
    change ((qrStep sqrt _ _ 0 _ >>= fun s => qrStep sqrt _ _ 1 s >>= fun s => .ok s) >>= _) = _
    rw [qrStep_split sqrt _ _ 0 _ (([3, 4, 0, -6, -8, 1], ⟨2, 2, [0, 0, 0, 0]⟩)) 25 (by decide +kernel), h25,
      show qrPost (⟨3, 2, [3, 4, 0, -6, -8, 1]⟩ : Dense Rat) ⟨3, 2, [3, 4, 0, -6, -8, 1]⟩ 0 ([3, 4, 0, -6, -8, 1], ⟨2, 2, [0, 0, 0, 0]⟩) 5
        = .ok ([3/5, 4/5, 0, -6, -8, 1], ⟨2, 2, [5, 0, 0, 0]⟩) by decide +kernel, ok_bind,
      qrStep_split sqrt _ _ 1 _ (([3/5, 4/5, 0, 0, 0, 1], ⟨2, 2, [5, 0, -10, 0]⟩)) 1 (by decide +kernel), h1,
      show qrPost (⟨3, 2, [3, 4, 0, -6, -8, 1]⟩ : Dense Rat) ⟨3, 2, [3, 4, 0, -6, -8, 1]⟩ 1 ([3/5, 4/5, 0, 0, 0, 1], ⟨2, 2, [5, 0, -10, 0]⟩) 1
        = .ok ([3/5, 4/5, 0, 0, 0, 1], ⟨2, 2, [5, 0, -10, 1]⟩) by decide +kernel]
    rfl
  unfold qr
  rw [show Dense.zeros 3 2 = .ok (⟨3, 2, [0, 0, 0, 0, 0, 0]⟩ : Dense Rat) by decide +kernel, ok_bind,
    show Dense.put (⟨3, 2, [0, 0, 0, 0, 0, 0]⟩ : Dense Rat) 0 0 3 = .ok ⟨3, 2, [3, 0, 0, 0, 0, 0]⟩ by decide +kernel, ok_bind,
    show Dense.put (⟨3, 2, [3, 0, 0, 0, 0, 0]⟩ : Dense Rat) 0 1 (-6) = .ok ⟨3, 2, [3, 0, 0, -6, 0, 0]⟩ by decide +kernel, ok_bind,
    show Dense.put (⟨3, 2, [3, 0, 0, -6, 0, 0]⟩ : Dense Rat) 1 0 4 = .ok ⟨3, 2, [3, 4, 0, -6, 0, 0]⟩ by decide +kernel, ok_bind,
    show Dense.put (⟨3, 2, [3, 4, 0, -6, 0, 0]⟩ : Dense Rat) 1 1 (-8) = .ok ⟨3, 2, [3, 4, 0, -6, -8, 0]⟩ by decide +kernel, ok_bind,
    show Dense.put (⟨3, 2, [3, 4, 0, -6, -8, 0]⟩ : Dense Rat) 2 1 1 = .ok ⟨3, 2, [3, 4, 0, -6, -8, 1]⟩ by decide +kernel, ok_bind, e, ok_bind]
  decide +kernel

/-- **C115.**  So does `LU()` with the matrix of its data file. -/
theorem C115_LU :
    lu (⟨4, 4, [2, -1, 0, 0, -1, 2, -1, 0, 0, -1, 2, -1, 0, 0, -1, 2]⟩ : Dense Rat)
      = .ok ([⟨4, 4, [2, -1, 0, 0, -1, 2, -1, 0, 0, -1, 2, -1, 0, 0, -1, 2]⟩,
          ⟨4, 4, [1, -1/2, 0, 0, 0, 1, -2/3, 0, 0, 0, 1, -3/4, 0, 0, 0, 1]⟩,
          ⟨4, 4, [2, 0, 0, 0, -1, 3/2, 0, 0, 0, -1, 4/3, 0, 0, 0, -1, 5/4]⟩,
          ⟨4, 4, [2, -1, 0, 0, -1, 2, -1, 0, 0, -1, 2, -1, 0, 0, -1, 2]⟩], [[1, 1, 1, 1], [2, 3, 3, 2], [1, 1, 1, 1]]) := by
  decide +kernel

/-- **C115.**  With any square matrix in the file: whenever `LU()` gets to its end, the product it shows is the matrix and the last vector is `b`. -/
theorem C115_LU_any (A : Dense K) (hA : A.WF) (hsq : A.cols = A.rows) (h1 : 1 ≤ A.rows) (s : List (Dense K)) (vs : List (List K)) (h : lu A = .ok (s, vs)) :
    ∃ L U LU b x Ax, s = [A, L, U, LU] ∧ vs = [b, x, Ax] ∧ UnitLower A.rows L.entry ∧ Upper A.rows U.entry ∧ LU.Is A.rows A.rows A.entry ∧
      VecIs b A.rows (fun _ => 1) ∧ VecIs Ax A.rows (fun _ => 1) ∧ VecIs Ax A.rows (matVec A.rows A.entry (vecAt x)) := by
  unfold lu at h
  simp only [bind_eq_ok] at h
  obtain ⟨⟨L, U⟩, e1, LU, e2, b, e3, x, e4, Ax, e5, e6⟩ := h
  simp only [Except.ok.injEq, Prod.mk.injEq] at e6
  obtain ⟨rfl, rfl⟩ := e6
  obtain ⟨hL, hU, hl, hu, hp, hz⟩ := C47_factor A hA hsq L U e1
  have hb : VecIs b A.rows (fun _ => (1 : K)) := by
    obtain ⟨n, hn⟩ : ∃ n : Nat, A.rows = n := ⟨A.rows.toNat, by omega⟩
    rw [hsq, hn, mkVec_nat] at e3
    simp only [Except.ok.injEq] at e3
    subst e3
    rw [hn]
    refine ⟨by simp, fun i h0 h1 => ?_⟩
    obtain ⟨k, rfl⟩ : ∃ k : Nat, i = k := ⟨i.toNat, by omega⟩
    rw [rd_nat (by simp; omega)]
    simp
  have hLU : LU.Is A.rows A.rows A.entry := by
    obtain ⟨E, e, hE⟩ := (C37_mult_new L U hL.wf hU.wf (by rw [hL.rows_eq]; exact h1) (by rw [hU.rows_eq]; exact h1)).1 (by rw [hL.cols_eq, hU.rows_eq])
    simp only at e2
    rw [e] at e2
    simp only [Except.ok.injEq] at e2
    subst e2
    rw [hL.rows_eq, hU.cols_eq, hL.cols_eq] at hE
    exact hE.congr (fun i j i0 i1 j0 j1 => hp i j i0 i1 j0 j1)
  obtain ⟨s1, s2⟩ := C47_solve A hA hsq L U e1 b hb.length_eq
  simp only at e4
  by_cases hlast : ∀ i, i + 1 = A.rows → U.entry i i ≠ 0
  · obtain ⟨x', ex, hx, hx2⟩ := s1 hlast
    rw [e4] at ex
    simp only [Except.ok.injEq] at ex
    subst ex
    obtain ⟨y, ey, hy⟩ := (C36_multVec A hA x).1 (by rw [hx, hsq])
    rw [e5] at ey
    simp only [Except.ok.injEq] at ey
    subst ey
    rw [hsq] at hy
    refine ⟨L, U, LU, b, x, Ax, rfl, rfl, hl, hu, hLU, hb, hy.congr ?_, hy⟩
    intro i h0 h1
    exact (hx2 i h0 h1).trans (hb.vecAt_eq h0 h1)
  · rw [s2 (by
      push Not at hlast
      obtain ⟨i, h3, h4⟩ := hlast
      exact ⟨i, by omega, h3, h4⟩)] at e4
    cases e4

/-- A size that fails: two columns, one row. -/
example : testQr (fun x : Rat => x) (⟨fun s => s.toNat, fun lo hi s => (lo + (hi - lo) * (s % 5 : Nat) / 4, s + 1)⟩ : Rng Nat Rat) 0 1 2 = .error .assertFail ∧
    testLu (⟨fun s => s.toNat, fun lo hi s => (lo + (hi - lo) * (s % 5 : Nat) / 4, s + 1)⟩ : Rng Nat Rat) 0 2 = .ok (⟨2, 2, [1, 1/2, 0, 1]⟩, ⟨2, 2, [-1, 0, 0, 1/2]⟩) := by
  decide +kernel

/-- There are random engines and square roots as `C115_wide` asks for. -/
example : ∃ (R : Rng Unit ℝ) (sqrt : ℝ → ℝ), R.Within ∧ ∀ s, 0 ≤ s → sqrt s * sqrt s = s :=
  ⟨⟨fun _ => (), fun lo _ _ => (lo, ())⟩, Real.sqrt, fun _ _ _ h => ⟨le_refl _, h⟩, fun _ h => Real.mul_self_sqrt h⟩

end Example
end Linalg
