import Verif.Props.Whole
import Verif.Props.FltLu

/-!
# C132: the triangular factorisation and solves on whole numbers in double precision

If the factors are whole numbers, and no sum of absolute values of their products is above `2 ^ 53`, `lu_decomp` and the solves do not round at all.
-/

namespace Linalg
open Cpp Floats Dbl Example

/-- The first `k` products of row `i` of `l` with column `c` of `u`. -/
def terms (l u : Nat → Nat → Int) (i c k : Nat) : List Int := (List.range k).map (fun t => l i t * u t c)

theorem terms_succ (l u : Nat → Nat → Int) (i c k : Nat) : terms l u i c (k + 1) = terms l u i c k ++ [l i k * u k c] := by
  unfold terms
  rw [List.range_succ, List.map_append, List.map_singleton]

theorem expo_zero : Expo 0 := ⟨by norm_num, by norm_num⟩

/-- What is left after the products are subtracted. -/
theorem subAll_dy {e : Int} (he : Expo e) (d : Int) (ps : List Int) (h : |d| + absSum ps ≤ cap) : subAll (dy e (ps.sum + d)) (ps.map (dy e)) = dy e d := by
  induction ps with
  | nil => simp [subAll]
  | cons a ps ih =>
    have h1 := absSum_nonneg ps
    have h2 := abs_nonneg a
    have h3 := abs_nonneg d
    have h4 : absSum (a :: ps) = |a| + absSum ps := by simp [absSum]
    have h5 := abs_sum_le ps
    have h6 : |a + ps.sum + d| ≤ |a| + |ps.sum| + |d| := (abs_add_le _ _).trans (by have := abs_add_le a ps.sum; omega)
    unfold subAll at ih ⊢
    rw [List.map_cons, List.foldl_cons, List.sum_cons, dy_sub he (by omega) (by omega)]
    rw [show a + ps.sum + d - a = ps.sum + d by ring]
    exact ih (by omega)

/-- **C132.**  If the matrix is the product of whole numbers `l` (ones on the diagonal) and `u` (no zero on the diagonal), and the absolute values of the
products in each entry add up to at most `2 ^ 53`, then `lu_decomp` returns exactly `l` and `u`, with zeros below the diagonal of `U` and above that of `L`. -/
theorem C132_lu (A : Dense Dbl) (n : Nat) (l u : Nat → Nat → Int) (h1 : ∀ i, i < n → l i i = 1) (h0 : ∀ i, i < n → u i i ≠ 0)
    (hA : A.Is n n (fun i c => dy 0 (terms l u i.toNat c.toNat (min i.toNat c.toNat + 1)).sum))
    (hb : ∀ i c, i < n → c < n → absSum (terms l u i c (min i c + 1)) ≤ cap) :
    ∃ L U, Flt.luDecomp A = .ok (L, U) ∧
      L.Is n n (fun i c => if c ≤ i then dy 0 (l i.toNat c.toNat) else 0) ∧ U.Is n n (fun i c => if i ≤ c then dy 0 (u i.toNat c.toNat) else 0) := by
  have entry : ∀ i c : Nat, i < n → c < n → A.entry i c = dy 0 (terms l u i c (min i c + 1)).sum := by
    intro i c hi hc
    have := hA.get_eq i c (by omega) (by omega) (by omega) (by omega)
    unfold Dense.entry
    rw [this]
    rfl
  have split : ∀ i c k, k ≤ min i c → i < n → c < n → absSum (terms l u i c k) + |l i k * u k c| ≤ cap := by
    intro i c k hk hi hc
    refine le_trans ?_ (hb i c hi hc)
    obtain ⟨d, hd⟩ := Nat.exists_eq_add_of_le hk
    have : absSum (terms l u i c (k + 1)) = absSum (terms l u i c k) + |l i k * u k c| := by
      rw [terms_succ, absSum_append]
      simp [absSum]
    rw [← this, hd]
    clear hd this hk
    induction d with
    | zero => exact le_refl _
    | succ d ih =>
      refine ih.trans ?_
      rw [show k + (d + 1) + 1 = (k + d + 1) + 1 by omega, terms_succ l u i c (k + d + 1), absSum_append]
      have := absSum_nonneg [l i (k + d + 1) * u (k + d + 1) c]
      omega
  have hu : ∀ t c, t < n → c < n → t ≤ c → |u t c| ≤ cap := by
    intro t c ht hc htc
    have := split t c t (by omega) ht hc
    have h2 := absSum_nonneg (terms l u t c t)
    rw [h1 t ht, one_mul] at this
    omega
  have hl : ∀ i t, i < n → t < n → t ≤ i → |l i t| ≤ cap := by
    intro i t hi ht hti
    have := split i t t (by omega) hi ht
    have h2 := absSum_nonneg (terms l u i t t)
    have h3 : 1 ≤ |u t t| := Int.one_le_abs (h0 t ht)
    rw [abs_mul] at this
    have h4 : |l i t| ≤ |l i t| * |u t t| := le_mul_of_one_le_right (abs_nonneg _) h3
    omega
  obtain ⟨L, U, e, hL, hU, hent⟩ := C131_lu A hA.wf n hA.rows_eq hA.cols_eq
  have main : ∀ k, k ≤ n → ∀ t, t < k → (∀ c, t ≤ c → c < n → U.entry t c = dy 0 (u t c)) ∧ (∀ i, t < i → i < n → L.entry i t = dy 0 (l i t)) := by
    intro k
    induction k with
    | zero => intro _ t ht; omega
    | succ k ih =>
      intro hk t ht
      rcases Nat.lt_or_ge t k with h | h
      · exact ih (by omega) t h
      · obtain rfl : t = k := by omega
        have prev := ih (by omega)
        have prods : ∀ i c, t ≤ i → t ≤ c → i < n → c < n → luProducts L U t i c = (terms l u i c t).map (dy 0) := by
          intro i c hi hc hi' hc'
          unfold luProducts terms
          rw [List.map_map]
          apply List.map_congr_left
          intro s hs
          have hs := List.mem_range.mp hs
          rw [(prev s hs).2 i (by omega) hi', (prev s hs).1 c (by omega) hc', dy_mul expo_zero expo_zero (hl i s hi' (by omega) (by omega)) (hu s c (by omega) hc' (by omega))]
          rfl
        have hU' : ∀ c, t ≤ c → c < n → U.entry t c = dy 0 (u t c) := by
          intro c hc hc'
          rw [(hent t c (by omega) hc').1 hc, prods t c (le_refl _) hc (by omega) hc', entry t c (by omega) hc', Nat.min_eq_left hc, terms_succ, List.sum_append,
            List.sum_singleton, h1 t (by omega), one_mul]
          refine subAll_dy expo_zero _ _ ?_
          have := split t c t (by omega) (by omega) hc'
          rw [h1 t (by omega), one_mul] at this
          omega
        refine ⟨hU', fun i hi hi' => ?_⟩
        have hs := split i t t (by omega) hi' (by omega)
        have h2 := absSum_nonneg (terms l u i t t)
        rw [((hent i t hi' (by omega)).2.1 hi).1, prods i t (by omega) (le_refl _) hi' (by omega), entry i t hi' (by omega), Nat.min_eq_right (by omega), terms_succ,
          List.sum_append, List.sum_singleton, subAll_dy expo_zero _ _ (by omega), hU' t (le_refl _) (by omega)]
        exact dy_div (h0 t (by omega)) (by omega) (hu t t (by omega) (by omega) (le_refl _))
  refine ⟨L, U, e, hL.congr ?_, hU.congr ?_⟩
  · intro i c i0 i1 c0 c1
    obtain ⟨i, rfl⟩ := Int.eq_ofNat_of_zero_le i0
    obtain ⟨c, rfl⟩ := Int.eq_ofNat_of_zero_le c0
    have hh := hent i c (by omega) (by omega)
    simp only [Int.toNat_natCast, Nat.cast_le]
    rcases lt_trichotomy c i with h | h | h
    · rw [if_pos (by omega)]
      exact (main n (le_refl _) c (by omega)).2 i h (by omega)
    · rw [if_pos (by omega), hh.2.2.1 h, h, h1 i (by omega), dy_one]
    · rw [if_neg (by omega), hh.2.2.2 h]
  · intro i c i0 i1 c0 c1
    obtain ⟨i, rfl⟩ := Int.eq_ofNat_of_zero_le i0
    obtain ⟨c, rfl⟩ := Int.eq_ofNat_of_zero_le c0
    have hh := hent i c (by omega) (by omega)
    simp only [Int.toNat_natCast, Nat.cast_le]
    rcases Nat.lt_or_ge c i with h | h
    · rw [if_neg (by omega), (hh.2.1 h).2, entry i c (by omega) (by omega), Nat.min_eq_right (by omega)]
      have : luProducts L U (c + 1) i c = (terms l u i c (c + 1)).map (dy 0) := by
        unfold luProducts terms
        rw [List.map_map]
        apply List.map_congr_left
        intro s hs
        have hs := List.mem_range.mp hs
        have hm := main n (le_refl _) s (by omega)
        rw [hm.2 i (by omega) (by omega), hm.1 c (by omega) (by omega),
          dy_mul expo_zero expo_zero (hl i s (by omega) (by omega) (by omega)) (hu s c (by omega) (by omega) (by omega))]
        rfl
      rw [this]
      have hs := hb i c (by omega) (by omega)
      rw [Nat.min_eq_right (by omega)] at hs
      have := subAll_dy expo_zero 0 (terms l u i c (c + 1)) (by simpa using hs)
      rw [add_zero, dy_zero 0 expo_zero] at this
      exact this
    · rw [if_pos h]
      exact (main n (le_refl _) i (by omega)).1 c h (by omega)

/-- **C132.**  The solves: for `b = l y`, `y = u x` with whole numbers, and the same bound for the products in each row, `x` is returned exactly. -/
theorem C132_solve (L U : Dense Dbl) (n : Nat) (l u : Nat → Nat → Int) (x y : Nat → Int) (h1 : ∀ i, i < n → l i i = 1) (h0 : ∀ i, i < n → u i i ≠ 0)
    (hL : L.Is n n (fun i c => if c ≤ i then dy 0 (l i.toNat c.toNat) else 0)) (hU : U.Is n n (fun i c => if i ≤ c then dy 0 (u i.toNat c.toNat) else 0))
    (sl : ∀ i c, i < n → c < i → |l i c| ≤ cap) (su : ∀ i c, i < c → c < n → |u i c| ≤ cap)
    (hy : ∀ i, i < n → y i = ((List.range (n - (i + 1))).map (fun k => u i (i + 1 + k) * x (i + 1 + k))).sum + u i i * x i)
    (b : List Dbl) (hbl : b.length = n) (hbe : ∀ i : Nat, i < n → vecAt b i = dy 0 (((List.range i).map (fun k => l i (i - 1 - k) * y (i - 1 - k))).sum + y i))
    (hbl1 : ∀ i, i < n → absSum ((List.range i).map (fun k => l i (i - 1 - k) * y (i - 1 - k))) + |y i| ≤ cap)
    (hbu : ∀ i, i < n → absSum ((List.range (n - (i + 1))).map (fun k => u i (i + 1 + k) * x (i + 1 + k))) + |u i i * x i| ≤ cap) (hx : ∀ i, i < n → |x i| ≤ cap)
    (hui : ∀ i, i < n → |u i i| ≤ cap) :
    ∃ z, Flt.solveLu L U b = .ok z ∧ VecIs z n (fun i => dy 0 (x i.toNat)) := by
  have entL : ∀ i c : Nat, i < n → c < n → c ≤ i → L.entry i c = dy 0 (l i c) := by
    intro i c hi hc hci
    have := hL.get_eq i c (by omega) (by omega) (by omega) (by omega)
    unfold Dense.entry
    rw [this, if_pos (by omega)]
    rfl
  have entU : ∀ i c : Nat, i < n → c < n → i ≤ c → U.entry i c = dy 0 (u i c) := by
    intro i c hi hc hci
    have := hU.get_eq i c (by omega) (by omega) (by omega) (by omega)
    unfold Dense.entry
    rw [this, if_pos (by omega)]
    rfl
  obtain ⟨v, e1, l1, v1⟩ := C131_forward L hL.wf n hL.rows_eq hL.cols_eq b hbl
  obtain ⟨z, e2, l2, z1⟩ := C131_back U hU.wf n hU.rows_eq hU.cols_eq v l1
  have yb : ∀ i, i < n → |y i| ≤ cap := by
    intro i hi
    have h2 := absSum_nonneg ((List.range i).map (fun k => l i (i - 1 - k) * y (i - 1 - k)))
    have := hbl1 i hi
    omega
  have hv : ∀ i : Nat, i < n → vecAt v i = dy 0 (y i) := by
    intro i
    induction i using Nat.strong_induction_on with
    | _ i ih =>
      intro hi
      rw [v1 i hi, entL i i hi hi (le_refl _), h1 i hi, hbe i hi]
      have : (iota i).map (fun k => L.entry i (i - 1 - k) * vecAt v (i - 1 - k)) = ((List.range i).map (fun k => l i (i - 1 - k) * y (i - 1 - k))).map (dy 0) := by
        unfold iota
        rw [List.map_map, List.map_map]
        apply List.map_congr_left
        intro k hk
        have hk := List.mem_range.mp hk
        simp only [Function.comp_def, Int.ofNat_eq_natCast]
        rw [show (i : Int) - 1 - (k : Int) = ((i - 1 - k : Nat) : Int) by omega, entL i _ hi (by omega) (by omega), ih _ (by omega) (by omega),
          dy_mul expo_zero expo_zero (sl i _ hi (by omega)) (yb _ (by omega))]
        rfl
      have hdiv := dy_div (j := y i) (k := 1) (by decide) (by rw [mul_one]; exact yb i hi) (by decide)
      rw [mul_one] at hdiv
      rw [this, subAll_dy expo_zero _ _ (by have := hbl1 i hi; omega), hdiv]
  have hz : ∀ m i : Nat, i < n → n - i = m → vecAt z i = dy 0 (x i) := by
    intro m
    induction m using Nat.strong_induction_on with
    | _ m ih =>
      intro i hi hm
      rw [z1 i hi, entU i i hi hi (le_refl _), hv i hi, hy i hi]
      have : (iota (n - (i + 1))).map (fun k => U.entry i (i + 1 + k) * vecAt z (i + 1 + k))
          = ((List.range (n - (i + 1))).map (fun k => u i (i + 1 + k) * x (i + 1 + k))).map (dy 0) := by
        unfold iota
        rw [List.map_map, List.map_map]
        apply List.map_congr_left
        intro k hk
        have hk := List.mem_range.mp hk
        simp only [Function.comp_def, Int.ofNat_eq_natCast]
        rw [show (i : Int) + 1 + (k : Int) = ((i + 1 + k : Nat) : Int) by omega, entU i _ hi (by omega) (by omega), ih (n - (i + 1 + k)) (by omega) _ (by omega) rfl,
          dy_mul expo_zero expo_zero (su i _ (by omega) (by omega)) (hx _ (by omega))]
        rfl
      have hs := hbu i hi
      have h2 := absSum_nonneg ((List.range (n - (i + 1))).map (fun k => u i (i + 1 + k) * x (i + 1 + k)))
      rw [this, subAll_dy expo_zero _ _ (by omega), mul_comm]
      exact dy_div (h0 i hi) (by rw [mul_comm]; omega) (hui i hi)
  refine ⟨z, by unfold Flt.solveLu; rw [e1, ok_bind, e2], by omega, fun i i0 i1 => ?_⟩
  obtain ⟨k, rfl⟩ := Int.eq_ofNat_of_zero_le i0
  have hk : k < n := by omega
  have h3 := hz (n - k) k hk rfl
  rw [Int.toNat_natCast, ← h3, rd_nat (by omega)]
  simp [vecAt, l2, hk]

/-- `l = [[1, 0], [3, 1]]`. -/
def wholeL (i c : Nat) : Int := if i = c then 1 else if c < i then 3 else 0

/-- `u = [[2, 5], [0, -4]]`. -/
def wholeU (i c : Nat) : Int := if i = 0 then (if c = 0 then 2 else 5) else -4

/-- `[[2, 5], [6, 11]]`. -/
example : ∃ L U, Flt.luDecomp (⟨2, 2, [dy 0 2, dy 0 6, dy 0 5, dy 0 11]⟩ : Dense Dbl) = .ok (L, U) ∧
    L.Is 2 2 (fun i c => if c ≤ i then dy 0 (wholeL i.toNat c.toNat) else 0) ∧ U.Is 2 2 (fun i c => if i ≤ c then dy 0 (wholeU i.toNat c.toNat) else 0) := by
  refine C132_lu _ 2 wholeL wholeU (by decide) (by decide) ⟨by decide +kernel, rfl, rfl, ?_⟩ ?_
  · intro i j i0 i1 j0 j1
    have : i < 2 := i1
    have : j < 2 := j1
    interval_cases i <;> interval_cases j <;> decide +kernel
  · intro i c hi hc
    interval_cases i <;> interval_cases c <;> decide

/-- With the right side `[12, 28]`: the solution `[1, 2]`, through `[12, -8]`. -/
example : ∃ z, Flt.solveLu (⟨2, 2, [dy 0 1, dy 0 3, 0, dy 0 1]⟩ : Dense Dbl) ⟨2, 2, [dy 0 2, 0, dy 0 5, dy 0 (-4)]⟩ [dy 0 12, dy 0 28] = .ok z ∧
    VecIs z 2 (fun i => dy 0 (if i.toNat = 0 then 1 else 2)) := by
  refine C132_solve _ _ 2 wholeL wholeU (fun i => if i = 0 then 1 else 2) (fun i => if i = 0 then 12 else -8) (by decide) (by decide)
    ⟨by decide +kernel, rfl, rfl, ?_⟩ ⟨by decide +kernel, rfl, rfl, ?_⟩ ?_ ?_ (by decide) _ rfl ?_ (by decide) (by decide) (by decide) (by decide)
  · intro i j i0 i1 j0 j1
    have : i < 2 := i1
    have : j < 2 := j1
    interval_cases i <;> interval_cases j <;> decide +kernel
  · intro i j i0 i1 j0 j1
    have : i < 2 := i1
    have : j < 2 := j1
    interval_cases i <;> interval_cases j <;> decide +kernel
  · intro i c hi hc
    have : c < 2 := by omega
    interval_cases i <;> interval_cases c <;> decide
  · intro i c hi hc
    have : i < 2 := by omega
    interval_cases c <;> interval_cases i <;> decide
  · intro i hi
    interval_cases i <;> decide +kernel

/-- A factorisation that is not whole is rounded: the entry `1 / 3` of `L`. -/
example : (Flt.luDecomp (⟨2, 2, [dy 0 3, dy 0 1, dy 0 5, dy 0 7]⟩ : Dense Dbl)).map (fun p => decide ((p.1.entry 1 0).toRat * 3 = 1)) = .ok false := by
  decide +kernel

end Linalg
