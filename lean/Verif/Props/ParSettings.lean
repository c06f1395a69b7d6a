import Verif.Model.ParSettings
import Verif.Cpp.Lemmas
import Mathlib.Tactic.Linarith

/-!
# C122: what hypre is told
-/

namespace Linalg
open Cpp HParams

theorem HParams.ofSize_eq (n : Nat) (h : n < 2 ^ 31) : ofSize n = n := by
  unfold ofSize castInt intMax
  omega

/-- A `double` without a fraction that fits is converted exactly. -/
theorem HParams.ofDouble_int (k : Int) (h1 : -2 ^ 31 ≤ k) (h2 : k < 2 ^ 31) : ofDouble (k : ℚ) = .ok k := by
  unfold ofDouble fit intMax
  rw [Int.floor_intCast, Int.ceil_intCast, ite_self, if_pos (by omega)]

/-- **C122.**  `BoomerAMG(A, max_iter, tol, verbose)`: the library is set up with the iterations, the tolerance and the printing that were asked for,
whatever it started from, if the number of iterations fits in an `int`. -/
theorem C122_boomer (d : Amg) (maxIter : Nat) (h : maxIter < 2 ^ 31) (tol : ℚ) (verbose : Bool) :
    ∃ p, (boomer d maxIter tol verbose).built = some p ∧ p = (boomer d maxIter tol verbose).now ∧ p.maxIter = maxIter ∧ p.tol = tol ∧
      (p.printLevel = 2 ↔ verbose = true) ∧ (p.printLevel = 0 ↔ verbose = false) ∧
      (p.coarsenType, p.aggLevels, p.relaxType, p.sweeps, p.interpType, p.pMax, p.maxLevels) = (10, 1, 8, 1, 6, 4, 25) ∧ p.threshold = 1 / 4 := by
  refine ⟨_, rfl, rfl, ofSize_eq _ h, rfl, (?_ : (if verbose then (2 : Int) else 0) = 2 ↔ _), (?_ : (if verbose then (2 : Int) else 0) = 0 ↔ _), rfl, rfl⟩ <;>
    cases verbose <;> decide

/-- **C122.**  `ParCG(A, max_iter, tol, verbose)`, likewise. -/
theorem C122_cg (d : Cg) (maxIter : Nat) (h : maxIter < 2 ^ 31) (tol : ℚ) (verbose : Bool) :
    (cg d maxIter tol verbose).built = some ⟨tol, maxIter, if verbose then 1 else 0⟩ := by
  have := ofSize_eq _ h
  unfold cg Handle.setup ofBool
  rw [this]

/-- **C122, negation.**  A number of iterations that does not fit reaches the library as another one: for `2^31` it is told a negative number, for
`2^32` it is told none at all. -/
theorem C122_iterations_false (d : Cg) (d' : Amg) (tol : ℚ) (verbose : Bool) :
    (cg d (2 ^ 31) tol verbose).now.maxIter = -2 ^ 31 ∧ (cg d (2 ^ 32) tol verbose).now.maxIter = 0 ∧
      (boomer d' (2 ^ 31) tol verbose).now.maxIter = -2 ^ 31 ∧ (boomer d' (2 ^ 32) tol verbose).now.maxIter = 0 := by
  refine ⟨?_, ?_, ?_, ?_⟩ <;> exact (show ofSize _ = _ by decide)

/-- **C122 (partial).**  `ParaSails(A, verbose, reuse, sym, load_bal, threshold, filter, max_levels)`: the library is set up with what was asked for,
whatever it started from, if `load_bal` is a whole number that fits in an `int`.  Missing: `load_bal` is handed on as an `int`, see
`C122_sails_false`. -/
theorem C122_sails_partial (d : Sails) (verbose : Bool) (reuse sym : Int) (k : Int) (h1 : -2 ^ 31 ≤ k) (h2 : k < 2 ^ 31) (threshold filter : ℚ)
    (levels : Int) :
    ∃ h, sails d verbose reuse sym k threshold filter levels = .ok h ∧ h.built = some h.now ∧
      h.now = ⟨threshold, levels, filter, sym, k, reuse, if verbose then 1 else 0⟩ := by
  unfold sails
  rw [ofDouble_int k h1 h2]
  exact ⟨_, rfl, rfl, rfl⟩

/-- **C122.**  The load balancing the library is told is the one asked for exactly when that is a whole number; else it differs by less than one. -/
theorem C122_sails_iff (d : Sails) (verbose : Bool) (reuse sym : Int) (loadBal threshold filter : ℚ) (levels : Int) (h : Handle Sails)
    (e : sails d verbose reuse sym loadBal threshold filter levels = .ok h) :
    (h.now.loadBal = loadBal ↔ ∃ k : Int, loadBal = k) ∧ |h.now.loadBal - loadBal| < 1 ∧ |h.now.loadBal| ≤ |loadBal| ∧ ∃ k : Int, h.now.loadBal = k := by
  obtain ⟨b, hb, e⟩ := bind_eq_ok.1 e
  cases e
  have hb : b = if 0 ≤ loadBal then ⌊loadBal⌋ else ⌈loadBal⌉ := by
    unfold ofDouble fit at hb
    generalize (if 0 ≤ loadBal then ⌊loadBal⌋ else ⌈loadBal⌉ : Int) = c at hb ⊢
    split at hb <;> cases hb
    rfl
  subst hb
  show ((((if 0 ≤ loadBal then ⌊loadBal⌋ else ⌈loadBal⌉ : Int) : ℚ) = loadBal) ↔ _) ∧
    |(((if 0 ≤ loadBal then ⌊loadBal⌋ else ⌈loadBal⌉ : Int) : ℚ)) - loadBal| < 1 ∧ |(((if 0 ≤ loadBal then ⌊loadBal⌋ else ⌈loadBal⌉ : Int) : ℚ))| ≤ _ ∧
    ∃ k : Int, (((if 0 ≤ loadBal then ⌊loadBal⌋ else ⌈loadBal⌉ : Int) : ℚ)) = k
  refine ⟨⟨fun h => ⟨_, h.symm⟩, ?_⟩, ?_, ?_, ⟨_, rfl⟩⟩
  · rintro ⟨k, rfl⟩
    rw [Int.floor_intCast, Int.ceil_intCast, ite_self]
  · have f1 := Int.floor_le loadBal
    have f2 := Int.lt_floor_add_one loadBal
    have f3 := Int.le_ceil loadBal
    have f4 := Int.ceil_lt_add_one loadBal
    split <;> rw [abs_lt] <;> constructor <;> linarith
  · split
    · rename_i hp
      have f0 : (0 : ℚ) ≤ (⌊loadBal⌋ : Int) := by exact_mod_cast Int.floor_nonneg.2 hp
      rw [abs_of_nonneg hp, abs_of_nonneg f0]
      exact Int.floor_le _
    · rename_i hp
      have hn : loadBal ≤ 0 := by linarith
      have f0 : ((⌈loadBal⌉ : Int) : ℚ) ≤ 0 := by exact_mod_cast Int.ceil_nonpos.2 hn
      rw [abs_of_nonpos hn, abs_of_nonpos f0]
      have := Int.le_ceil loadBal
      linarith

/-- **C122, negation.**  Any load balancing strictly between -1 and 1 switches it off; beyond the range of `int` the
constructor has undefined behaviour. -/
theorem C122_sails_false (d : Sails) (verbose : Bool) (reuse sym : Int) (loadBal threshold filter : ℚ) (levels : Int) :
    (|loadBal| < 1 → ∃ h, sails d verbose reuse sym loadBal threshold filter levels = .ok h ∧ h.now.loadBal = 0) ∧
      (2 ^ 31 ≤ loadBal → sails d verbose reuse sym loadBal threshold filter levels = .error .undefinedBehaviour) := by
  constructor
  · intro h
    have hb : ofDouble loadBal = .ok 0 := by
      unfold ofDouble fit intMax
      rw [abs_lt] at h
      split
      · rename_i hp
        have : ⌊loadBal⌋ = 0 := by rw [Int.floor_eq_zero_iff]; exact ⟨hp, h.2⟩
        rw [this]; rfl
      · rename_i hp
        have : ⌈loadBal⌉ = 0 := by rw [Int.ceil_eq_zero_iff]; exact ⟨by linarith, by linarith⟩
        rw [this]; rfl
    unfold sails
    rw [hb]
    exact ⟨_, rfl, rfl⟩
  · intro h
    have hb : ofDouble loadBal = .error .undefinedBehaviour := by
      unfold ofDouble fit intMax
      have hp : (0 : ℚ) ≤ loadBal := le_trans (by norm_num) h
      rw [if_pos hp, if_neg]
      have : (2 ^ 31 : Int) ≤ ⌊loadBal⌋ := Int.le_floor.2 (by exact_mod_cast h)
      omega
    unfold sails
    rw [hb]
    rfl

/-- **C122, negation.**  Setters called on a `ParaSails` that was made with its matrix do not change what it applies: nothing sets it up again. -/
theorem C122_setters_false (d : Sails) (verbose : Bool) (reuse sym : Int) (loadBal threshold filter : ℚ) (levels : Int) (h : Handle Sails)
    (e : sails d verbose reuse sym loadBal threshold filter levels = .ok h) (l : List SailsSet) :
    (l.foldl (fun h c => c.run h) h).built = some h.now := by
  have e1 : h.built = some h.now := by
    obtain ⟨b, hb, e⟩ := bind_eq_ok.1 e
    cases e
    rfl
  rw [← e1]
  clear e e1
  induction l generalizing h with
  | nil => rfl
  | cons c l ih =>
    rw [List.foldl_cons, ih]
    cases c <;> rfl

/-- A run: with the default arguments but a load balancing of 0.9, and `SetFilter(0.5)` after it. -/
example : let d : Sails := ⟨1 / 10, 1, 1 / 20, 0, 0, 0, 0⟩
    ∃ h, sails d true 1 2 (9 / 10) (1 / 10) (1 / 5) 3 = .ok h ∧ h.built = some ⟨1 / 10, 3, 1 / 5, 2, 0, 1, 1⟩ ∧
      (setFilter (1 / 2) h).now.filter = 1 / 2 ∧ (setFilter (1 / 2) h).built = h.built := by
  refine ⟨⟨⟨1 / 10, 3, 1 / 5, 2, 0, 1, 1⟩, some ⟨1 / 10, 3, 1 / 5, 2, 0, 1, 1⟩⟩, ?_, rfl, rfl, rfl⟩
  have : ofDouble (9 / 10) = .ok 0 := by decide +kernel
  unfold sails
  rw [this]
  rfl

end Linalg
