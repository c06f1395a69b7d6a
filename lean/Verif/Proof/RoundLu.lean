import Verif.Proof.Round
import Verif.Proof.Examples

/-! # Rounding errors of the triangular factorisation and solves: helper lemmas -/

namespace Linalg
open Cpp

namespace Rounding
variable {r : Rounding}

theorem gamma_add_le (r : Rounding) (m n : Nat) : r.gamma m + r.gamma n ≤ r.gamma (m + n) := by
  have := r.gamma_add m n
  nlinarith [mul_nonneg (r.gamma_nonneg m) (r.gamma_nonneg n)]

/-- One subtraction of a product: what was there before, from what is there after. -/
theorem sub_fac (r : Rounding) (s p q : ℝ) : ∃ t e, r.Fac 1 t ∧ r.Fac 1 e ∧ s = r.rnd (s - r.rnd (p * q)) * t + p * e * q := by
  obtain ⟨t, ht, h1⟩ := r.rnd_fac' (s - r.rnd (p * q))
  obtain ⟨e, he, h2⟩ := r.rnd_fac (p * q)
  refine ⟨t, e, ht, he, ?_⟩
  rw [← h1, h2]
  ring

/-- A loop that subtracts products. -/
theorem chainUp (r : Rounding) {a b : Int} (hab : a ≤ b) (p q : Int → ℝ) (body : Int → ℝ → Res ℝ) (c : ℝ)
    (hb : ∀ j v, a ≤ j → j < b → body j v = .ok (r.rnd (v - r.rnd (p j * q j)))) :
    ∃ s, forUp a b c body = .ok s ∧ ∃ t : ℝ, ∃ f : Int → ℝ, r.Fac (b - a).toNat t ∧ (∀ j, r.Fac (b - a).toNat (f j)) ∧
      c = s * t + ∑ j ∈ Finset.Ico a b, p j * f j * q j := by
  obtain ⟨n, hn⟩ : ∃ n : Nat, b = a + n := ⟨(b - a).toNat, by omega⟩
  induction n generalizing a c with
  | zero =>
    obtain rfl : a = b := by omega
    exact ⟨c, forUp_nil (le_refl _) _ _, 1, fun _ => 1, Fac.one _, fun _ => Fac.one _, by simp⟩
  | succ n ih =>
    rw [forUp_cons (by omega), hb a c (le_refl _) (by omega), ok_bind]
    obtain ⟨s, h1, t, f, h2, h3, h4⟩ := ih (a := a + 1) (by omega) (r.rnd (c - r.rnd (p a * q a))) (fun j v h => hb j v (by omega)) (by omega)
    obtain ⟨t', e, ht', he, h5⟩ := r.sub_fac c (p a) (q a)
    have hlen : (b - a).toNat = (b - (a + 1)).toNat + 1 := by omega
    refine ⟨s, h1, t * t', fun j => if j = a then e else f j * t', ?_, ?_, ?_⟩
    · rw [hlen]; exact h2.mul ht'
    · intro j
      rw [hlen]
      dsimp only
      split
      · exact he.mono (by omega)
      · exact (h3 j).mul ht'
    · have hI : Finset.Ico a b = insert a (Finset.Ico (a + 1) b) := by
        ext x; simp only [Finset.mem_Ico, Finset.mem_insert]; omega
      rw [hI, Finset.sum_insert (by simp)]
      beta_reduce
      rw [if_pos rfl]
      have hS : ∑ j ∈ Finset.Ico (a + 1) b, p j * (if j = a then e else f j * t') * q j
          = (∑ j ∈ Finset.Ico (a + 1) b, p j * f j * q j) * t' := by
        rw [Finset.sum_mul]
        apply Finset.sum_congr rfl
        intro j hj
        have := Finset.mem_Ico.mp hj
        rw [if_neg (by omega)]
        ring
      rw [hS]
      conv_lhs => rw [h5, h4]
      ring

/-- The same counting down to zero. -/
theorem chainDown (r : Rounding) {n : Int} (hn : 0 ≤ n) (p q : Int → ℝ) (body : Int → ℝ → Res ℝ) (c : ℝ)
    (hb : ∀ j v, 0 ≤ j → j < n → body j v = .ok (r.rnd (v - r.rnd (p j * q j)))) :
    ∃ s, forDown (n - 1) (-1) c body = .ok s ∧ ∃ t : ℝ, ∃ f : Int → ℝ, r.Fac n.toNat t ∧ (∀ j, r.Fac n.toNat (f j)) ∧
      c = s * t + ∑ j ∈ Finset.Ico 0 n, p j * f j * q j := by
  unfold forDown
  obtain ⟨s, h1, t, f, h2, h3, h4⟩ := r.chainUp (a := 0) (b := n - 1 - -1) (by omega) (fun k => p (n - 1 - k)) (fun k => q (n - 1 - k))
    (fun k s => body (n - 1 - k) s) c (fun j v h0 h1 => hb _ v (by omega) (by omega))
  have hl : (n - 1 - -1 - 0).toNat = n.toNat := by omega
  rw [hl] at h2 h3
  refine ⟨s, h1, t, fun j => f (n - 1 - j), h2, fun j => h3 _, ?_⟩
  rw [h4]
  congr 1
  apply Finset.sum_bij' (fun k _ => n - 1 - k) (fun k _ => n - 1 - k)
  · intro k hk; have := Finset.mem_Ico.mp hk; exact Finset.mem_Ico.mpr (by omega)
  · intro k hk; have := Finset.mem_Ico.mp hk; exact Finset.mem_Ico.mpr (by omega)
  · intro k hk; omega
  · intro k hk; omega
  · intro k hk
    beta_reduce
    rw [show n - 1 - (n - 1 - k) = k by omega]

/-- The division at the end of a row. -/
theorem div_fac (r : Rounding) (s : ℝ) {d : ℝ} (hd : d ≠ 0) : ∃ t, r.Fac 1 t ∧ s = d * t * r.rnd (s / d) := by
  obtain ⟨t, ht, h⟩ := r.rnd_fac' (s / d)
  refine ⟨t, ht, ?_⟩
  have : s = d * (s / d) := by field_simp
  conv_lhs => rw [this, h]
  ring

end Rounding

namespace Example
open Rounding

/-- One row of `forward_elim`. -/
theorem feStep_round (r : Rounding) {n : Nat} (l : Int → Int → ℝ) (b f : Int → ℝ) {i : Int} (h0 : 0 ≤ i) (h1 : i < n) (hd : l i i ≠ 0) :
    ∃ v, @feStep ℝ _ r.sub r.mul r.div _ (Dense.ofFn n n l) (vecFn n b) i (vecFn n f) = .ok (vecFn n (fun a => if a = i then v else f a)) ∧
      ∃ g : Int → ℝ, (∀ j, r.Fac (i + 1).toNat (g j)) ∧ b i = l i i * g i * v + ∑ j ∈ Finset.Ico 0 i, l i j * g j * f j := by
  unfold feStep
  obtain ⟨s, e1, t, g, ht, hg, e2⟩ := r.chainDown h0 (l i) f (fun j s => do
    let lv ← (Dense.ofFn n n l).get i j
    let xj ← vrd (vecFn n f) j
    .ok (r.rnd (s - r.rnd (lv * xj)))) (b i) (fun j v j0 j1 => by
      rw [Dense.get_ofFn h0 h1 j0 (by omega), ok_bind, vrd_vecFn j0 (by omega), ok_bind])
  have hlen : (i + 1).toNat = i.toNat + 1 := by omega
  obtain ⟨t', ht', e3⟩ := r.div_fac s hd
  refine ⟨r.rnd (s / l i i), ?_, fun j => if j = i then t * t' else g j, ?_, ?_⟩
  · rw [vrd_vecFn h0 h1, ok_bind]
    erw [e1]
    rw [ok_bind, Dense.get_ofFn h0 h1 h0 h1, ok_bind]
    unfold fdiv
    rw [if_neg hd, ok_bind, vwr_vecFn _ h0 h1]
    rfl
  · intro j
    rw [hlen]
    dsimp only
    split
    · exact ht.mul ht'
    · exact (hg j).mono (by omega)
  · beta_reduce
    rw [if_pos rfl]
    have hS : ∑ j ∈ Finset.Ico 0 i, l i j * (if j = i then t * t' else g j) * f j = ∑ j ∈ Finset.Ico 0 i, l i j * g j * f j := by
      apply Finset.sum_congr rfl
      intro j hj
      have := Finset.mem_Ico.mp hj
      rw [if_neg (by omega)]
    rw [hS]
    conv_lhs => rw [e2, e3]
    ring

/-- One row of `back_solve`. -/
theorem bsStep_round (r : Rounding) {n : Nat} (u : Int → Int → ℝ) (b f : Int → ℝ) {i : Int} (h0 : 0 ≤ i) (h1 : i < n) (hd : u i i ≠ 0) :
    ∃ v, @bsStep ℝ _ r.sub r.mul r.div _ (Dense.ofFn n n u) (vecFn n b) i (vecFn n f) = .ok (vecFn n (fun a => if a = i then v else f a)) ∧
      ∃ g : Int → ℝ, (∀ j, r.Fac (n - i).toNat (g j)) ∧ b i = u i i * g i * v + ∑ j ∈ Finset.Ico (i + 1) n, u i j * g j * f j := by
  unfold bsStep
  obtain ⟨s, e1, t, g, ht, hg, e2⟩ := r.chainUp (a := i + 1) (b := n) (by omega) (u i) f (fun j s => do
    let lv ← (Dense.ofFn n n u).get i j
    let xj ← vrd (vecFn n f) j
    .ok (r.rnd (s - r.rnd (lv * xj)))) (b i) (fun j v j0 j1 => by
      rw [Dense.get_ofFn h0 h1 (by omega) j1, ok_bind, vrd_vecFn (by omega) j1, ok_bind])
  have hlen : ((n : Int) - i).toNat = ((n : Int) - (i + 1)).toNat + 1 := by omega
  obtain ⟨t', ht', e3⟩ := r.div_fac s hd
  refine ⟨r.rnd (s / u i i), ?_, fun j => if j = i then t * t' else g j, ?_, ?_⟩
  · rw [vrd_vecFn h0 h1, ok_bind, Dense.ofFn_rows]
    erw [e1]
    rw [ok_bind, Dense.get_ofFn h0 h1 h0 h1, ok_bind]
    unfold fdiv
    rw [if_neg hd, ok_bind, vwr_vecFn _ h0 h1]
    rfl
  · intro j
    rw [hlen]
    dsimp only
    split
    · exact ht.mul ht'
    · exact (hg j).mono (by omega)
  · beta_reduce
    rw [if_pos rfl]
    have hS : ∑ j ∈ Finset.Ico (i + 1) (n : Int), u i j * (if j = i then t * t' else g j) * f j = ∑ j ∈ Finset.Ico (i + 1) (n : Int), u i j * g j * f j := by
      apply Finset.sum_congr rfl
      intro j hj
      have := Finset.mem_Ico.mp hj
      rw [if_neg (by omega)]
    rw [hS]
    conv_lhs => rw [e2, e3]
    ring

theorem forwardElim_round (r : Rounding) {n : Nat} (l : Int → Int → ℝ) (b : Int → ℝ) (hd : ∀ i, 0 ≤ i → i < (n : Int) → l i i ≠ 0) :
    ∃ f, @forwardElim ℝ _ r.sub r.mul r.div _ (Dense.ofFn n n l) (vecFn n b) = .ok (vecFn n f) ∧
      ∀ i, 0 ≤ i → i < (n : Int) → ∃ g : Int → ℝ, (∀ j, r.Fac (i + 1).toNat (g j)) ∧ ∑ j ∈ Finset.Ico 0 (i + 1), l i j * g j * f j = b i := by
  unfold forwardElim
  rw [Dense.ofFn_rows, mkVec_nat, ok_bind, replicate_vecFn]
  obtain ⟨s, e, f, rfl, hf⟩ := forUp_inv (a := 0) (b := n) (by omega)
    (f := fun i x => @feStep ℝ _ r.sub r.mul r.div _ (Dense.ofFn n n l) (vecFn n b) i x)
    (fun k x => ∃ f, x = vecFn n f ∧ ∀ i, 0 ≤ i → i < k → ∃ g : Int → ℝ, (∀ j, r.Fac (i + 1).toNat (g j)) ∧ ∑ j ∈ Finset.Ico 0 (i + 1), l i j * g j * f j = b i)
    (s := vecFn n (fun _ => 0)) ⟨_, rfl, by intro i h0 h1; omega⟩ (by
      rintro i s h0 h1 ⟨f, rfl, hf⟩
      obtain ⟨v, e1, g, hg, e2⟩ := feStep_round r l b f h0 h1 (hd i h0 h1)
      refine ⟨_, e1, _, rfl, ?_⟩
      intro k k0 k1
      by_cases hk : k = i
      · subst hk
        refine ⟨g, hg, ?_⟩
        rw [sum_Ico_succ _ k0, if_pos rfl, e2, add_comm]
        congr 1
        apply Finset.sum_congr rfl
        intro j hj
        have := Finset.mem_Ico.mp hj
        rw [if_neg (by omega)]
      · obtain ⟨g', hg', e3⟩ := hf k k0 (by omega)
        refine ⟨g', hg', ?_⟩
        rw [← e3]
        apply Finset.sum_congr rfl
        intro j hj
        have := Finset.mem_Ico.mp hj
        rw [if_neg (by omega)])
  exact ⟨f, e, hf⟩

theorem backSolve_round (r : Rounding) {n : Nat} (u : Int → Int → ℝ) (b : Int → ℝ) (hd : ∀ i, 0 ≤ i → i < (n : Int) → u i i ≠ 0) :
    ∃ f, @backSolve ℝ _ r.sub r.mul r.div _ (Dense.ofFn n n u) (vecFn n b) = .ok (vecFn n f) ∧
      ∀ i, 0 ≤ i → i < (n : Int) → ∃ g : Int → ℝ, (∀ j, r.Fac (n - i).toNat (g j)) ∧ ∑ j ∈ Finset.Ico i n, u i j * g j * f j = b i := by
  unfold backSolve
  rw [Dense.ofFn_rows, mkVec_nat, ok_bind, replicate_vecFn]
  unfold forDown
  obtain ⟨s, e, f, rfl, hf⟩ := forUp_inv (a := 0) (b := (n : Int) - 1 - -1) (by omega)
    (f := fun k x => @bsStep ℝ _ r.sub r.mul r.div _ (Dense.ofFn n n u) (vecFn n b) ((n : Int) - 1 - k) x)
    (fun k x => ∃ f, x = vecFn n f ∧ ∀ i, (n : Int) - k ≤ i → i < n → ∃ g : Int → ℝ, (∀ j, r.Fac (n - i).toNat (g j)) ∧ ∑ j ∈ Finset.Ico i (n : Int), u i j * g j * f j = b i)
    (s := vecFn n (fun _ => 0)) ⟨_, rfl, by intro i h0 h1; omega⟩ (by
      rintro k s h0 h1 ⟨f, rfl, hf⟩
      obtain ⟨v, e1, g, hg, e2⟩ := bsStep_round r (n := n) u b f (i := (n : Int) - 1 - k) (by omega) (by omega) (hd _ (by omega) (by omega))
      refine ⟨_, e1, _, rfl, ?_⟩
      intro i k0 k1
      by_cases hk : i = (n : Int) - 1 - k
      · subst hk
        refine ⟨g, hg, ?_⟩
        have hI : Finset.Ico ((n : Int) - 1 - k) (n : Int) = insert ((n : Int) - 1 - k) (Finset.Ico ((n : Int) - 1 - k + 1) n) := by
          ext x; simp only [Finset.mem_Ico, Finset.mem_insert]; omega
        rw [hI, Finset.sum_insert (by simp), if_pos rfl, e2]
        congr 1
        apply Finset.sum_congr rfl
        intro j hj
        have := Finset.mem_Ico.mp hj
        rw [if_neg (by omega)]
      · obtain ⟨g', hg', e3⟩ := hf i (by omega) k1
        refine ⟨g', hg', ?_⟩
        rw [← e3]
        apply Finset.sum_congr rfl
        intro j hj
        have := Finset.mem_Ico.mp hj
        rw [if_neg (by omega)])
  exact ⟨f, e, fun i h0 h1 => hf i (by omega) h1⟩

/-- The passes of `lu_decomp` on one entry that is not yet eliminated. -/
theorem luSeq_round (r : Rounding) (a : Int → Int → ℝ) (k : Nat) (i c : Int) (hi : (k : Int) ≤ i) (hc : (k : Int) ≤ c) :
    ∃ t : ℝ, ∃ f : Nat → ℝ, r.Fac k t ∧ (∀ j, r.Fac k (f j)) ∧
      a i c = (@luSeq ℝ _ _ r.sub r.mul r.div a k).2 i c * t
        + ∑ j ∈ Finset.range k, (@luSeq ℝ _ _ r.sub r.mul r.div a (j + 1)).1 i j * f j * (@luSeq ℝ _ _ r.sub r.mul r.div a j).2 j c := by
  induction k with
  | zero => exact ⟨1, fun _ => 1, Fac.one _, fun _ => Fac.one _, by simp [luSeq]⟩
  | succ k ih =>
    obtain ⟨t, f, ht, hf, e⟩ := ih (by omega) (by omega)
    obtain ⟨t', e', ht', he', e2⟩ := r.sub_fac ((@luSeq ℝ _ _ r.sub r.mul r.div a k).2 i c)
      (r.rnd ((@luSeq ℝ _ _ r.sub r.mul r.div a k).2 i k / (@luSeq ℝ _ _ r.sub r.mul r.div a k).2 k k)) ((@luSeq ℝ _ _ r.sub r.mul r.div a k).2 k c)
    have hU : (@luSeq ℝ _ _ r.sub r.mul r.div a (k + 1)).2 i c = r.rnd ((@luSeq ℝ _ _ r.sub r.mul r.div a k).2 i c
        - r.rnd (r.rnd ((@luSeq ℝ _ _ r.sub r.mul r.div a k).2 i k / (@luSeq ℝ _ _ r.sub r.mul r.div a k).2 k k) * (@luSeq ℝ _ _ r.sub r.mul r.div a k).2 k c)) := by
      change @nextU ℝ r.sub r.mul r.div (k : Int) (@luSeq ℝ _ _ r.sub r.mul r.div a k).2 i c = _
      unfold nextU
      rw [if_pos ⟨by omega, by omega⟩]
      rfl
    have hL : (@luSeq ℝ _ _ r.sub r.mul r.div a (k + 1)).1 i k
        = r.rnd ((@luSeq ℝ _ _ r.sub r.mul r.div a k).2 i k / (@luSeq ℝ _ _ r.sub r.mul r.div a k).2 k k) := by
      change @nextL ℝ _ r.div (k : Int) (@luSeq ℝ _ _ r.sub r.mul r.div a k).1 (@luSeq ℝ _ _ r.sub r.mul r.div a k).2 i k = _
      unfold nextL
      rw [if_pos rfl, if_neg (by omega), if_pos (by omega)]
      rfl
    rw [← hU, ← hL] at e2
    refine ⟨t' * t, fun j => if j = k then e' * t else f j, ?_, ?_, ?_⟩
    · rw [add_comm k 1]; exact ht'.mul ht
    · intro j
      dsimp only
      split
      · rw [add_comm k 1]; exact he'.mul ht
      · exact (hf j).mono (by omega)
    · rw [Finset.sum_range_succ]
      beta_reduce
      rw [if_pos rfl]
      have hS : ∑ j ∈ Finset.range k, (@luSeq ℝ _ _ r.sub r.mul r.div a (j + 1)).1 i j * (if j = k then e' * t else f j) * (@luSeq ℝ _ _ r.sub r.mul r.div a j).2 j c
          = ∑ j ∈ Finset.range k, (@luSeq ℝ _ _ r.sub r.mul r.div a (j + 1)).1 i j * f j * (@luSeq ℝ _ _ r.sub r.mul r.div a j).2 j c := by
        apply Finset.sum_congr rfl
        intro j hj
        have := Finset.mem_range.mp hj
        rw [if_neg (by omega)]
      rw [hS, e]
      conv_lhs => rw [e2]
      ring

end Example
end Linalg
