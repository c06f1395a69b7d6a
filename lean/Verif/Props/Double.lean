import Verif.Props.PcgRound
import Verif.Model.Norm

/-!
# C130: products, norms and averages in double precision

The bounds of C104 with overflow, underflow and NaN, and what overflow and underflow do to the norm.
-/

namespace Linalg
open Cpp Floats

section
variable {F : Type} [Floats F] [RoundLaws F]
open RoundLaws

/-- `v` is the sum of the products of the pairs `l`, with rounding. -/
structure RoundedSum [RangeLaws F] (l : List (F × F)) (v : F) : Prop where
  /-- NaN and infinities do not get lost -/
  all_fin : IsFin v → ∀ p ∈ l, IsFin p.1 ∧ IsFin p.2
  /-- there is no overflow as long as the sum of the absolute values is in range -/
  fin : (∀ p ∈ l, IsFin p.1 ∧ IsFin p.2) → (1 + relErr F l.length) * (l.map (fun p => |val p.1 * val p.2|)).sum + absErr F l.length ≤ RangeLaws.big F → IsFin v
  /-- the error -/
  err : IsFin v → |val v - (l.map (fun p => val p.1 * val p.2)).sum| ≤ relErr F l.length * (l.map (fun p => |val p.1 * val p.2|)).sum + absErr F l.length

theorem sum_abs_nonneg (l : List (F × F)) : 0 ≤ (l.map (fun p => |val p.1 * val p.2|)).sum :=
  le_trans (abs_nonneg _) (abs_sum_map (fun p : F × F => val p.1 * val p.2) l)

/-- The bound of one more term, and of the partial sums. -/
theorem bound_step {s S T w c : ℝ} (k : Nat) (hT : |S| ≤ T) (h1 : |s - S| ≤ relErr F k * T + absErr F k) (h2 : |c - w| ≤ u F * |w| + eta F) :
    |s + c| ≤ (1 + relErr F (k + 1)) * (T + |w|) + absErr F (k + 1) ∧
    (1 + relErr F k) * T + absErr F k ≤ (1 + relErr F (k + 1)) * (T + |w|) + absErr F (k + 1) ∧
    |w| ≤ (1 + relErr F (k + 1)) * (T + |w|) + absErr F (k + 1) := by
  have hT0 : 0 ≤ T := le_trans (abs_nonneg _) hT
  have hw0 := abs_nonneg w
  have hu := u_nonneg (F := F)
  have he := eta_nonneg (F := F)
  have a1 : |s + c| ≤ T + (relErr F k * T + absErr F k) + (|w| + (u F * |w| + eta F)) := by
    have : s + c = S + (s - S) + (w + (c - w)) := by ring
    rw [this]
    exact le_trans (abs_add_le _ _) (add_le_add (le_trans (abs_add_le _ _) (add_le_add hT h1)) (le_trans (abs_add_le _ _) (add_le_add le_rfl h2)))
  have hp := one_le_pow_u (F := F) k
  unfold relErr absErr at *
  have e1 : (1 + u F) ^ (k + 1 + 1) = (1 + u F) ^ k * (1 + u F) * (1 + u F) := by ring
  have e2 : (1 + u F) ^ (k + 1) = (1 + u F) ^ k * (1 + u F) := by ring
  rw [e1, e2]
  rw [e2] at a1
  generalize (1 + u F) ^ k = P at *
  push_cast
  have hP : 0 ≤ P := by linarith
  have k0 : (0 : ℝ) ≤ k := Nat.cast_nonneg k
  have b1 : 0 ≤ P * (1 + u F) * u F * T := by positivity
  have b2 : 0 ≤ (P - 1) * |w| := mul_nonneg (by linarith) hw0
  have b3 : 0 ≤ (P - 1) * |w| * (2 * u F + u F * u F) := mul_nonneg b2 (by positivity)
  have b4 : 0 ≤ (P - 1) * eta F := mul_nonneg (by linarith) he
  have b5 : 0 ≤ k * P * u F * eta F := by positivity
  have b6 : 0 ≤ P * u F * eta F := by positivity
  have b7 : 0 ≤ |w| * (u F + u F * u F) := by positivity
  have b8 : 0 ≤ P * T := by positivity
  have b9 : 0 ≤ P * u F * T := by positivity
  have b10 : 0 ≤ P * u F * u F * T := by positivity
  have b11 : 0 ≤ k * P * eta F := by positivity
  refine ⟨?_, ?_, ?_⟩ <;> nlinarith

variable [RangeLaws F]

theorem roundedSum_nil : RoundedSum ([] : List (F × F)) 0 where
  all_fin _ p hp := by simp at hp
  fin _ _ := zero_fin
  err _ := by simpa [val_zero] using absErr_nonneg (F := F) 0

theorem RoundedSum.concat {l : List (F × F)} {s : F} (h : RoundedSum l s) (q : F × F) : RoundedSum (l ++ [q]) (s + q.1 * q.2) where
  all_fin hv p hp := by
    obtain ⟨h1, h2, -⟩ := RoundLaws.add _ _ hv
    obtain ⟨h4, h5, -⟩ := RoundLaws.mul _ _ h2
    rcases List.mem_append.mp hp with hp | hp
    · exact h.all_fin h1 p hp
    · obtain rfl : p = q := by simpa using hp
      exact ⟨h4, h5⟩
  fin hl hb := by
    simp only [List.map_append, List.sum_append, List.map_cons, List.map_nil, List.sum_cons, List.sum_nil, add_zero, List.length_append,
      List.length_cons, List.length_nil, zero_add] at hb
    obtain ⟨q1, q2⟩ := hl q (by simp)
    have hT := abs_sum_map (fun p : F × F => val p.1 * val p.2) l
    -- the product
    have hz : |(0 : ℝ)| ≤ (l.map (fun p => |val p.1 * val p.2|)).sum := by
      rw [abs_zero]
      exact sum_abs_nonneg l
    have t0 := (bound_step (F := F) (s := 0) (S := 0) (w := val q.1 * val q.2) (c := val q.1 * val q.2) l.length hz
      (by
        rw [sub_zero, abs_zero]
        exact add_nonneg (mul_nonneg (relErr_nonneg _) (sum_abs_nonneg l)) (absErr_nonneg _))
      (by
        rw [sub_self, abs_zero]
        exact add_nonneg (mul_nonneg u_nonneg (abs_nonneg _)) eta_nonneg))
    have hc := RangeLaws.mul_fin _ _ q1 q2 (t0.2.2.trans hb)
    obtain ⟨-, -, h6⟩ := RoundLaws.mul _ _ hc
    -- the partial sum
    have hs := h.fin (fun p hp => hl p (by simp [hp])) (t0.2.1.trans hb)
    exact RangeLaws.add_fin _ _ hs hc ((bound_step l.length hT (h.err hs) h6).1.trans hb)
  err hv := by
    obtain ⟨h1, h2, h3⟩ := RoundLaws.add _ _ hv
    obtain ⟨h4, h5, h6⟩ := RoundLaws.mul _ _ h2
    have i2 := h.err h1
    simp only [List.map_append, List.sum_append, List.map_cons, List.map_nil, List.sum_cons, List.sum_nil, add_zero, List.length_append,
      List.length_cons, List.length_nil, zero_add]
    generalize val s = s' at *
    generalize val (q.1 * q.2) = c at *
    generalize val (s + q.1 * q.2) = d at *
    generalize hw : val q.1 * val q.2 = w at *
    have hT := abs_sum_map (fun p : F × F => val p.1 * val p.2) l
    have hT0 := sum_abs_nonneg l
    generalize (l.map (fun p => val p.1 * val p.2)).sum = S at *
    generalize (l.map (fun p => |val p.1 * val p.2|)).sum = T at *
    have hu := u_nonneg (F := F)
    have he := eta_nonneg (F := F)
    generalize l.length = k at *
    have hw0 := abs_nonneg w
    have a1 : |s' + c - (S + w)| ≤ relErr F k * T + absErr F k + (u F * |w| + eta F) := by
      have : s' + c - (S + w) = (s' - S) + (c - w) := by ring
      rw [this]
      exact le_trans (abs_add_le _ _) (add_le_add i2 h6)
    have a2 : |s' + c| ≤ |s' + c - (S + w)| + (T + |w|) := by
      have : s' + c = (s' + c - (S + w)) + (S + w) := by ring
      calc |s' + c| = |(s' + c - (S + w)) + (S + w)| := by rw [← this]
        _ ≤ |s' + c - (S + w)| + |S + w| := abs_add_le _ _
        _ ≤ _ := add_le_add le_rfl (le_trans (abs_add_le _ _) (add_le_add hT le_rfl))
    have a3 : |d - (S + w)| ≤ (1 + u F) * |s' + c - (S + w)| + u F * (T + |w|) := by
      have : d - (S + w) = (d - (s' + c)) + (s' + c - (S + w)) := by ring
      calc |d - (S + w)| ≤ |d - (s' + c)| + |s' + c - (S + w)| := by rw [this]; exact abs_add_le _ _
        _ ≤ u F * (|s' + c - (S + w)| + (T + |w|)) + |s' + c - (S + w)| :=
          add_le_add (le_trans h3 (mul_le_mul_of_nonneg_left a2 hu)) le_rfl
        _ = _ := by ring
    refine le_trans a3 ?_
    have a4 := mul_le_mul_of_nonneg_left a1 (show 0 ≤ 1 + u F by linarith)
    have hp := one_le_pow_u (F := F) k
    unfold relErr absErr at *
    have e1 : (1 + u F) ^ (k + 1 + 1) = (1 + u F) ^ k * (1 + u F) * (1 + u F) := by ring
    have e2 : (1 + u F) ^ (k + 1) = (1 + u F) ^ k * (1 + u F) := by ring
    rw [e1, e2]
    rw [e2] at a4
    generalize (1 + u F) ^ k = P at *
    push_cast
    have b1 : 0 ≤ (P - 1) * |w| := mul_nonneg (by linarith) hw0
    have b2 : 0 ≤ (P - 1) * eta F := mul_nonneg (by linarith) he
    have b3 : 0 ≤ (P - 1) * |w| * (2 * u F + u F * u F) := mul_nonneg b1 (by positivity)
    have b4 : 0 ≤ (P - 1) * eta F * u F := mul_nonneg b2 hu
    nlinarith

/-- Adding up from zero. -/
theorem roundedSum_addUp (l : List (F × F)) : RoundedSum l (addUp (l.map (fun p => p.1 * p.2))) := by
  induction l using List.reverseRecOn with
  | nil => exact roundedSum_nil
  | append_singleton l q ih =>
    rw [List.map_append, List.map_cons, List.map_nil, addUp_concat]
    exact ih.concat q

/-- One product. -/
theorem roundedSum_single (q : F × F) : RoundedSum [q] (q.1 * q.2) where
  all_fin hv p hp := by
    obtain rfl : p = q := by simpa using hp
    obtain ⟨h4, h5, -⟩ := RoundLaws.mul _ _ hv
    exact ⟨h4, h5⟩
  fin hl hb := by
    obtain ⟨q1, q2⟩ := hl q (by simp)
    refine RangeLaws.mul_fin _ _ q1 q2 (le_trans ?_ hb)
    simp only [List.map_cons, List.map_nil, List.sum_cons, List.sum_nil, add_zero]
    have h1 := mul_nonneg (relErr_nonneg (F := F) [q].length) (abs_nonneg (val q.1 * val q.2))
    have h2 := absErr_nonneg (F := F) [q].length
    linarith
  err hv := by
    obtain ⟨-, -, h6⟩ := RoundLaws.mul _ _ hv
    simp only [List.map_cons, List.map_nil, List.sum_cons, List.sum_nil, add_zero, List.length_cons, List.length_nil, zero_add]
    refine le_trans h6 ?_
    have hu := u_nonneg (F := F)
    have he := eta_nonneg (F := F)
    have hw := abs_nonneg (val q.1 * val q.2)
    unfold relErr absErr
    push_cast
    have b1 : 0 ≤ (u F + u F * u F) * |val q.1 * val q.2| := by positivity
    have b2 : 0 ≤ u F * eta F := by positivity
    nlinarith

/-- Adding on to the first product. -/
theorem roundedSum_addOn (l : List (F × F)) : RoundedSum l (addOn (l.map (fun p => p.1 * p.2))) := by
  induction l using List.reverseRecOn with
  | nil => exact roundedSum_nil
  | append_singleton l q ih =>
    cases l with
    | nil => exact roundedSum_single q
    | cons a l =>
      rw [List.map_append]
      rw [show List.map (fun p : F × F => p.1 * p.2) [q] = [q.1 * q.2] from rfl, addOn_concat (by simp)]
      exact ih.concat q

/-! ## The products -/

/-- **C130.**  `SparseMatrix::Mult` and `MultAT`. -/
theorem C130_sparse (A : Csr F) (hA : A.WF) (x y : List F) :
    ((x.length : Int) = A.cols → (y.length : Int) = A.rows → ∃ y', A.mult x y = .ok y' ∧ (y'.length : Int) = A.rows ∧
      ∀ i, 0 ≤ i → i < A.rows → RoundedSum ((A.row i).map (fun e => (e.2, vecAt x e.1))) (vecAt y' i)) ∧
    ((x.length : Int) = A.rows → (y.length : Int) = A.cols → ∃ y', A.multAT x y = .ok y' ∧ (y'.length : Int) = A.cols ∧
      ∀ j, 0 ≤ j → j < A.cols → RoundedSum ((A.column j).map (fun e => (e.2, vecAt x e.1))) (vecAt y' j)) := by
  refine ⟨fun hx hy => ?_, fun hx hy => ?_⟩
  · obtain ⟨y', h1, h2⟩ := C103_mult A hA x y hx hy
    refine ⟨y', h1, h2.length_eq, fun i h0 hi => ?_⟩
    rw [h2.vecAt_eq h0 hi]
    simpa only [List.map_map, Function.comp_def] using roundedSum_addUp ((A.row i).map (fun e => (e.2, vecAt x e.1)))
  · obtain ⟨y', h1, h2⟩ := C103_multAT A hA x y hx hy
    refine ⟨y', h1, h2.length_eq, fun i h0 hi => ?_⟩
    rw [h2.vecAt_eq h0 hi]
    simpa only [List.map_map, Function.comp_def] using roundedSum_addUp ((A.column i).map (fun e => (e.2, vecAt x e.1)))

/-- **C130.**  The products of the other matrix classes with a vector. -/
theorem C130_other (x y : List F) :
    (∀ D : Dense F, D.WF → (x.length : Int) = D.cols → (y.length : Int) = D.rows → ∃ y', D.mult x y = .ok y' ∧ (y'.length : Int) = D.rows ∧
      ∀ i, 0 ≤ i → i < D.rows → RoundedSum ((iota D.cols.toNat).map (fun j => (D.entry i j, vecAt x j))) (vecAt y' i)) ∧
    (∀ D : Dense F, D.WF → (x.length : Int) = D.rows → (y.length : Int) = D.cols → ∃ y', D.multAT x y = .ok y' ∧ (y'.length : Int) = D.cols ∧
      ∀ j, 0 ≤ j → j < D.cols → RoundedSum ((iota D.rows.toNat).map (fun i => (D.entry i j, vecAt x i))) (vecAt y' j)) ∧
    (∀ C : Coo F, C.WF → C.sizeSet = true → (x.length : Int) = C.cols → (y.length : Int) = C.rows → ∃ y', C.mult x y = .ok y' ∧ (y'.length : Int) = C.rows ∧
      ∀ i, 0 ≤ i → i < C.rows → RoundedSum ((C.entries.filter (fun e => e.1 = i)).map (fun e => (e.2.2, vecAt x e.2.1))) (vecAt y' i)) ∧
    (∀ L : Lil F, L.WF → (x.length : Int) = L.cols → (y.length : Int) = L.rows → ∃ y', L.mult x y = .ok y' ∧ (y'.length : Int) = L.rows ∧
      ∀ i, 0 ≤ i → i < L.rows → RoundedSum ((L.entries.getD i.toNat []).map (fun e => (e.2, vecAt x e.1))) (vecAt y' i)) := by
  refine ⟨?_, ?_, ?_, ?_⟩
  · intro D hD hx hy
    obtain ⟨y', h1, h2⟩ := (C103_dense D hD x y).1 hx hy
    refine ⟨y', h1, h2.length_eq, fun i h0 hi => ?_⟩
    rw [h2.vecAt_eq h0 hi]
    simpa only [List.map_map, Function.comp_def] using roundedSum_addUp ((iota D.cols.toNat).map (fun j => (D.entry i j, vecAt x j)))
  · intro D hD hx hy
    obtain ⟨y', h1, h2⟩ := (C103_dense D hD x y).2 hx hy
    refine ⟨y', h1, h2.length_eq, fun i h0 hi => ?_⟩
    rw [h2.vecAt_eq h0 hi]
    simpa only [List.map_map, Function.comp_def] using roundedSum_addUp ((iota D.rows.toNat).map (fun j => (D.entry j i, vecAt x j)))
  · intro C hC hs hx hy
    obtain ⟨y', h1, h2⟩ := C103_coo C hC hs x y hx hy
    refine ⟨y', h1, h2.length_eq, fun i h0 hi => ?_⟩
    rw [h2.vecAt_eq h0 hi]
    simpa only [List.map_map, Function.comp_def] using roundedSum_addUp ((C.entries.filter (fun e => e.1 = i)).map (fun e => (e.2.2, vecAt x e.2.1)))
  · intro L hL hx hy
    obtain ⟨y', h1, h2⟩ := C103_lil L hL x y hx hy
    refine ⟨y', h1, h2.length_eq, fun i h0 hi => ?_⟩
    rw [h2.vecAt_eq h0 hi]
    simpa only [List.map_map, Function.comp_def] using roundedSum_addUp ((L.entries.getD i.toNat []).map (fun e => (e.2, vecAt x e.1)))

/-- The pairs of an entry of row `i` of `A` and an entry of column `j` of `B` that meet. -/
def Csr.meetPairs {α : Type} (A B : Csr α) (i j : Int) : List (α × α) :=
  (A.row i).flatMap (fun a => ((B.row a.1).filter (fun b => b.1 = j)).map (fun b => (a.2, b.2)))

/-- **C130.**  The product of two sparse matrices. -/
theorem C130_product (A B : Csr F) (hA : A.WF) (hB : B.WF) (hdim : B.rows = A.cols) :
    ∃ P, A.multSparse B = .ok P ∧ P.WF ∧ P.rows = A.rows ∧ P.cols = B.cols ∧ ∀ i, 0 ≤ i → i < A.rows → ((P.row i).map Prod.fst).Nodup ∧
      (∀ j, j ∈ (P.row i).map Prod.fst ↔ A.meetPairs B i j ≠ []) ∧ ∀ e ∈ P.row i, RoundedSum (A.meetPairs B i e.1) e.2 := by
  obtain ⟨P, h1, h2, h3, h4, h5⟩ := C103_product A B hA hB hdim
  have e : ∀ i j, A.meets B i j = (A.meetPairs B i j).map (fun p => p.1 * p.2) := by
    intro i j
    unfold Csr.meets Csr.meetPairs
    rw [List.map_flatMap]
    simp only [List.map_map]
    rfl
  refine ⟨P, h1, h2, h3, h4, fun i h0 hi => ?_⟩
  obtain ⟨g1, g2, g3⟩ := h5 i h0 hi
  refine ⟨g1, fun j => ?_, fun c hc => ?_⟩
  · rw [g2 j, e]
    simp
  · rw [g3 c hc, e]
    exact roundedSum_addOn _

/-- **C130.**  The inner product. -/
theorem C130_inner (x y : List F) (h : y.length = x.length) : ∃ s, Vec.inner x y = .ok s ∧ RoundedSum (x.zip y) s := by
  refine ⟨_, (C103_vector x y).2 h, ?_⟩
  rw [← List.map_uncurry_zip_eq_zipWith]
  exact roundedSum_addUp (x.zip y)

end

/-! ## The norm -/

/-- A square root: right for zero and infinity. -/
structure IsDblSqrt (sqrt : Dbl → Dbl) : Prop where
  zero : sqrt 0 = 0
  inf : (sqrt ⟨.inf false, fun _ h => by cases h⟩).ext = .inf false

namespace Dbl

theorem rnd_small {q : ℚ} (h0 : 0 ≤ q) (h : q < 2 ^ (-1075 : Int)) : rnd q = 0 := by
  unfold rnd
  rw [if_neg (by linarith)]
  obtain ⟨⟨m, e, h1, -, h3⟩, h2⟩ := Io.roundBin_nearest h0
  have n0 := h2 0 Dbl.isDouble_zero.isBin
  have r0 := Io.roundBin_nonneg (q := q)
  by_contra hne
  have hpos : 0 < Io.roundBin q := lt_of_le_of_ne r0 (Ne.symm hne)
  have hle : Io.roundBin q ≤ 2 * q := by
    rw [sub_zero, abs_of_nonneg h0] at n0
    have := (abs_le.mp n0).1
    linarith
  have hm : 1 ≤ m := by
    by_contra hc
    have : (m : ℚ) ≤ 0 := by exact_mod_cast (by omega : m ≤ 0)
    have : (m : ℚ) * 2 ^ e ≤ 0 := mul_nonpos_of_nonpos_of_nonneg this (zpow_nonneg (by norm_num) _)
    rw [← h1] at this
    linarith
  have hge : (2 : ℚ) ^ (-1074 : Int) ≤ Io.roundBin q := by
    rw [h1]
    have a1 : (1 : ℚ) ≤ m := by exact_mod_cast hm
    have a2 : (2 : ℚ) ^ (-1074 : Int) ≤ 2 ^ e := zpow_le_zpow_right₀ (by norm_num) h3
    have a3 : (0 : ℚ) < 2 ^ (-1074 : Int) := zpow_pos (by norm_num) _
    calc (2 : ℚ) ^ (-1074 : Int) ≤ 2 ^ e := a2
      _ = 1 * 2 ^ e := (one_mul _).symm
      _ ≤ _ := mul_le_mul_of_nonneg_right a1 (a3.le.trans a2)
  have e4 : (2 : ℚ) ^ (-1074 : Int) = 2 * 2 ^ (-1075 : Int) := by
    rw [show (-1074 : Int) = 1 + -1075 by norm_num, zpow_add₀ (by norm_num)]
    norm_num
  rw [e4] at hge
  linarith

theorem mul_ext {a b : Dbl} {x y : ℚ} (ha : a.ext = .fin x) (hb : b.ext = .fin y) : a * b = fit (.fin (x * y)) := by
  show fit (a.ext * b.ext) = _
  rw [ha, hb]
  rfl

theorem sq_small {a : Dbl} {q : ℚ} (ha : a.ext = .fin q) (h : |q| < 2 ^ (-538 : Int)) : a * a = 0 := by
  rw [mul_ext ha ha]
  have hq : q * q < 2 ^ (-1075 : Int) := by
    have e : (2 : ℚ) ^ (-538 : Int) * 2 ^ (-538 : Int) = 2 ^ (-1076 : Int) := by rw [← zpow_add₀ (by norm_num)]; norm_num
    have e2 : (2 : ℚ) ^ (-1076 : Int) ≤ 2 ^ (-1075 : Int) := zpow_le_zpow_right₀ (by norm_num) (by norm_num)
    have := mul_lt_mul'' h h (abs_nonneg _) (abs_nonneg _)
    rw [abs_mul_abs_self, e] at this
    linarith
  have hr := rnd_small (mul_self_nonneg q) hq
  apply ext_inj
  unfold fit
  simp only [hr, abs_zero]
  rw [dif_pos (by positivity)]
  rfl

/-- Not negative, and not NaN. -/
def Pos (a : Dbl) : Prop := a.ext = .inf false ∨ ∃ q, 0 ≤ q ∧ a.ext = .fin q

theorem fit_pos {q : ℚ} (h : 0 ≤ q) : Pos (fit (.fin q)) := by
  unfold fit Pos
  simp only
  have hr : 0 ≤ rnd q := by
    unfold rnd
    rw [if_neg (by linarith)]
    exact Io.roundBin_nonneg
  split
  · exact Or.inr ⟨_, hr, rfl⟩
  · left
    simp [h]

theorem add_pos {a b : Dbl} (ha : Pos a) (hb : Pos b) : Pos (a + b) ∧ (a.ext = .inf false ∨ b.ext = .inf false → (a + b).ext = .inf false) := by
  have e : a + b = fit (a.ext + b.ext) := rfl
  rcases ha with ha | ⟨x, x0, ha⟩ <;> rcases hb with hb | ⟨y, y0, hb⟩ <;> rw [e, ha, hb]
  · exact ⟨Or.inl rfl, fun _ => rfl⟩
  · exact ⟨Or.inl rfl, fun _ => rfl⟩
  · exact ⟨Or.inl rfl, fun _ => rfl⟩
  · refine ⟨fit_pos (q := x + y) (by linarith), fun h => ?_⟩
    rcases h with h | h <;> cases h

theorem sq_pos {a : Dbl} {q : ℚ} (ha : a.ext = .fin q) : Pos (a * a) := by
  rw [mul_ext ha ha]
  exact fit_pos (mul_self_nonneg q)

theorem sq_big {a : Dbl} {q : ℚ} (ha : a.ext = .fin q) (h : 2 ^ 512 ≤ |q|) : (a * a).ext = .inf false := by
  rw [mul_ext ha ha]
  have hq : 2 ^ 1024 ≤ q * q := by
    have := mul_le_mul h h (by positivity) (abs_nonneg _)
    rw [abs_mul_abs_self, ← pow_add] at this
    exact this
  have q0 := mul_self_nonneg q
  have hr : 2 ^ 1024 ≤ rnd (q * q) := by
    unfold rnd
    rw [if_neg (not_lt.mpr q0)]
    have hb : Io.IsBin (2 ^ 1024) := ⟨1, 1024, by norm_num, by norm_num, by norm_num⟩
    have := (Io.roundBin_nearest q0).2 _ hb
    generalize (2 : ℚ) ^ 1024 = L at *
    rw [abs_of_nonneg (a := q * q - L) (by linarith)] at this
    have := (abs_le.mp this).2
    linarith
  unfold fit
  simp only
  rw [dif_neg]
  · simp [q0]
  · rw [not_lt]
    exact hr.trans (le_abs_self _)

end Dbl

theorem inner_self (x : List Dbl) : Vec.inner x x = .ok (addUp (x.map (fun a => a * a))) := by
  rw [(C103_vector x x).2 rfl]
  congr 2
  induction x with
  | nil => rfl
  | cons a x ih => simp

/-- **C130.**  If all elements are small then the norm underflows to zero, and `Normalize` rejects the vector, zero or not. -/
theorem C130_norm_small (sqrt : Dbl → Dbl) (hs : IsDblSqrt sqrt) (x : List Dbl) (h : ∀ a ∈ x, ∃ q, a.ext = .fin q ∧ |q| < 2 ^ (-538 : Int)) :
    Vec.l2Norm sqrt x = .ok 0 ∧ Flt.normalize sqrt x = .error .assertFail := by
  have e : addUp (x.map (fun a => a * a)) = 0 := by
    induction x using List.reverseRecOn with
    | nil => rfl
    | append_singleton x a ih =>
      obtain ⟨q, h1, h2⟩ := h a (by simp)
      rw [List.map_append, List.map_cons, List.map_nil, addUp_concat, ih (fun b hb => h b (by simp [hb])), Dbl.sq_small h1 h2]
      decide +kernel
  have e1 : Vec.l2Norm sqrt x = .ok 0 := by
    unfold Vec.l2Norm
    rw [inner_self, ok_bind, e, hs.zero]
  refine ⟨e1, ?_⟩
  unfold Flt.normalize
  rw [e1, ok_bind]
  rfl

/-- **C130.**  If some element is large then the norm overflows, and `Normalize` leaves the zero vector, whose norm is not one. -/
theorem C130_norm_large (sqrt : Dbl → Dbl) (hs : IsDblSqrt sqrt) (x : List Dbl) (h : ∀ a ∈ x, IsFin a) (a : Dbl) (q : ℚ) (ha : a ∈ x) (hq : a.ext = .fin q)
    (hb : 2 ^ 512 ≤ |q|) :
    (∃ n, Vec.l2Norm sqrt x = .ok n ∧ n.ext = .inf false) ∧ Flt.normalize sqrt x = .ok (List.replicate x.length 0) := by
  have key : ∀ x : List Dbl, (∀ a ∈ x, IsFin a) → Dbl.Pos (addUp (x.map (fun a => a * a))) ∧
      (a ∈ x → (addUp (x.map (fun a => a * a))).ext = .inf false) := by
    intro x h
    induction x using List.reverseRecOn with
    | nil => exact ⟨Or.inr ⟨0, le_refl _, rfl⟩, fun h => by simp at h⟩
    | append_singleton x b ih =>
      obtain ⟨i1, i2⟩ := ih (fun c hc => h c (by simp [hc]))
      obtain ⟨p, hp⟩ := (Dbl.isFin_iff b).mp (h b (by simp))
      rw [List.map_append, List.map_cons, List.map_nil, addUp_concat]
      obtain ⟨j1, j2⟩ := Dbl.add_pos i1 (Dbl.sq_pos hp)
      refine ⟨j1, fun hm => j2 ?_⟩
      rcases List.mem_append.mp hm with hm | hm
      · exact Or.inl (i2 hm)
      · obtain rfl : a = b := by simpa using hm
        exact Or.inr (Dbl.sq_big hq hb)
  have e := (key x h).2 ha
  have e0 : addUp (x.map (fun a => a * a)) = ⟨.inf false, fun _ h => by cases h⟩ := Dbl.ext_inj e
  have e1 : Vec.l2Norm sqrt x = .ok (sqrt ⟨.inf false, fun _ h => by cases h⟩) := by
    unfold Vec.l2Norm
    rw [inner_self, ok_bind, e0]
  refine ⟨⟨_, e1, hs.inf⟩, ?_⟩
  unfold Flt.normalize
  rw [e1, ok_bind]
  have hi := hs.inf
  generalize sqrt ⟨.inf false, fun _ h => by cases h⟩ = n at hi
  have hn : eq n 0 = false := by
    show Floats.eq n.ext (.fin 0) = false
    rw [hi]
    rfl
  unfold Flt.divVec
  rw [cassert_true hn, ok_bind]
  congr 1
  rw [List.eq_replicate_iff]
  refine ⟨by simp, fun c hc => ?_⟩
  obtain ⟨b, hb, rfl⟩ := List.mem_map.mp hc
  obtain ⟨p, hp⟩ := (Dbl.isFin_iff b).mp (h b hb)
  apply Dbl.ext_inj
  have : (b / n).ext = (Dbl.fit (b.ext / n.ext)).ext := rfl
  rw [this, hp, hi]
  exact Dbl.fit_zero

/-- **C130.**  The average of an empty vector is NaN; no assertion rejects it. -/
theorem C130_mean_empty {F : Type} [Floats F] [NanLaws F] [ZeroLaws F] (ofInt : Int → F) (h : IsZero (ofInt 0)) :
    IsNan (Flt.mean ofInt []) ∧ Flt.subAvg ofInt [] = [] :=
  ⟨ZeroLaws.div _ _ ZeroLaws.zero h, rfl⟩

/-- **C130.**  `SubAvg` subtracts `Mean(vect)` from every element; so one NaN makes all elements NaN. -/
theorem C130_subAvg {F : Type} [Floats F] [NanLaws F] (ofInt : Int → F) (v : List F) :
    (Flt.subAvg ofInt v).length = v.length ∧ (∀ i (h : i < v.length), (Flt.subAvg ofInt v)[i]? = some (v[i] - Flt.mean ofInt v)) ∧
    ((∃ a ∈ v, IsNan a) → ∀ a ∈ Flt.subAvg ofInt v, IsNan a) := by
  refine ⟨by simp [Flt.subAvg], fun i h => by simp [Flt.subAvg, List.getElem?_eq_getElem h], fun h a ha => ?_⟩
  obtain ⟨b, -, rfl⟩ := List.mem_map.1 ha
  exact NanLaws.sub_nan _ _ (Or.inr (NanLaws.div_nan _ _ (Or.inl (addUp_nan v h))))

/-- C130: `SubAvg` of `(1, 3)` in double precision. -/
example : Flt.subAvg (fun n => Dbl.of n) [.of 1, .of 3] = [.of (-1), .of 1] := by decide +kernel

/-! ## Concrete cases -/

/-- PCG with the default tolerances for the identity: it works for `1e100`; it throws for `1e200`, because the inner products overflow; for `1e-200` it returns
zero. -/
theorem C130_pcg : let S := dblPcg ⟨1, 1, [0, 1], [0], [.of 1]⟩ (1 / 10 ^ 16)
    let S := { S with relTol := .of (1 / 10 ^ 16) }
    (S.multF (.of (-10 ^ 12)) [.of (10 ^ 100)] [.of 0] dblState).toOption.map (fun p => (p.1, p.2.x)) = some (1, [.of (10 ^ 100)]) ∧
    S.multF (.of (-10 ^ 12)) [.of (10 ^ 200)] [.of 0] dblState = .error .threw ∧
    (S.multF (.of (-10 ^ 12)) [.of (1 / 10 ^ 200)] [.of 0] dblState).toOption.map (fun p => (p.1, p.2.x)) = some (1, [0]) := by
  decide +kernel

/-- A square root for the cases below. -/
def zeroSqrt (a : Dbl) : Dbl := a

theorem isDblSqrt_zeroSqrt : IsDblSqrt zeroSqrt := ⟨rfl, rfl⟩

example : Flt.normalize zeroSqrt [.of (1 / 10 ^ 200), .of (-1 / 10 ^ 170)] = .error .assertFail := by
  refine (C130_norm_small zeroSqrt isDblSqrt_zeroSqrt _ ?_).2
  intro a ha
  refine ⟨a.toRat, ?_⟩
  simp only [List.mem_cons, List.not_mem_nil, or_false] at ha
  rcases ha with rfl | rfl <;> decide +kernel

example : Flt.normalize zeroSqrt [.of (10 ^ 200), .of 1] = .ok [0, 0] :=
  (C130_norm_large zeroSqrt isDblSqrt_zeroSqrt [.of (10 ^ 200), .of 1] (by
    intro a ha
    simp only [List.mem_cons, List.not_mem_nil, or_false] at ha
    rw [Dbl.isFin_iff]
    refine ⟨a.toRat, ?_⟩
    rcases ha with rfl | rfl <;> decide +kernel) (.of (10 ^ 200)) (Dbl.of (10 ^ 200)).toRat (by simp) (by decide +kernel) (by decide +kernel)).2

/-- The product `[2 1; 1 2] (0.1, 0.2)` in double precision; the bounds apply. -/
example : ∃ y', dblMat.mult [.of (1 / 10), .of (2 / 10)] [0, 0] = .ok y' ∧ y' = [.of (4 / 10), .of (5 / 10)] ∧
    ∀ i, 0 ≤ i → i < 2 → RoundedSum ((dblMat.row i).map (fun e => (e.2, vecAt [.of (1 / 10), .of (2 / 10)] e.1))) (vecAt y' i) := by
  obtain ⟨y', h1, -, h3⟩ := (C130_sparse dblMat (by decide +kernel) [.of (1 / 10), .of (2 / 10)] [0, 0]).1 rfl rfl
  have h2 : dblMat.mult [.of (1 / 10), .of (2 / 10)] [0, 0] = .ok [.of (4 / 10), .of (5 / 10)] := by decide +kernel
  exact ⟨y', h1, Except.ok.inj (h1.symm.trans h2), h3⟩

/-- Finite numbers whose inner product is zero: the code gives NaN. -/
example : Vec.inner [Dbl.of (10 ^ 200), .of (10 ^ 200)] [.of (10 ^ 200), .of (-10 ^ 200)] = .ok ⟨.nan, fun _ h => by cases h⟩ := by decide +kernel

end Linalg
