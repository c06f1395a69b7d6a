import Verif.Props.FltDiv
import Verif.Props.RoundLu

/-!
# C131: the triangular factorisation and solves with floating-point numbers

Nothing in examples/dense/dense_lu.cpp tests a pivot: the functions always return.
-/

namespace Linalg
open Cpp Floats Example

variable {F : Type} [Floats F]

namespace Flt

theorem luElim_eq {n : Nat} {i j : Int} (hi : 0 ≤ i) (hi' : i < n) (hj : 0 ≤ j) (hj' : j < n) (hij : i ≠ j)
    (l u : Int → Int → F) : Flt.luElim n i j (Dense.ofFn n n l, Dense.ofFn n n u)
      = .ok (Dense.ofFn n n (fun r c => if r = j ∧ c = i then u j i / u i i else l r c),
          Dense.ofFn n n (fun r c => if r = j ∧ i ≤ c then u r c - u j i / u i i * u i c else u r c)) := by
  unfold Flt.luElim
  simp only
  rw [Dense.get_ofFn hj hj' hi hi', ok_bind, Dense.get_ofFn hi hi' hi hi', ok_bind, luRow_eq hi hi' hj hj' hij, ok_bind,
    Dense.put_ofFn _ hj hj' hi hi', ok_bind]

theorem luStep_eq {n : Nat} {i : Int} (hi : 0 ≤ i) (hi' : i < n) (l u : Int → Int → F) :
    (do
      let s ← forUp (i + 1) (n : Int) (Dense.ofFn n n l, Dense.ofFn n n u) (fun j s => Flt.luElim n i j s)
      let L ← s.1.put i i 1
      .ok (L, s.2) : Res (Dense F × Dense F))
      = .ok (Dense.ofFn n n (nextL i l u), Dense.ofFn n n (nextU i u)) := by
  have e := forUp_seq' (a := i + 1) (b := n) (by omega) (body := fun j s => Flt.luElim n i j s)
    (fun k => (Dense.ofFn n n (fun r c => if i < r ∧ r < k ∧ c = i then u r i / u i i else l r c),
      Dense.ofFn n n (fun r c => if i < r ∧ r < k ∧ i ≤ c then u r c - u r i / u i i * u i c else u r c)))
    (by
      intro j h0 h1
      rw [luElim_eq hi hi' (by omega) h1 (by omega)]
      rw [if_neg (show ¬ (i < i ∧ i < j ∧ i ≤ i) by omega), if_neg (show ¬ (i < j ∧ j < j ∧ i ≤ i) by omega)]
      congr 2
      · apply Dense.ofFn_congr
        intro r c _ _ _ _
        by_cases h : r = j ∧ c = i
        · obtain ⟨rfl, rfl⟩ := h
          rw [if_pos ⟨rfl, rfl⟩, if_pos (by omega)]
        · rw [if_neg h]
          by_cases h2 : i < r ∧ r < j ∧ c = i
          · rw [if_pos h2, if_pos (by omega)]
          · rw [if_neg h2, if_neg (by omega)]
      · apply Dense.ofFn_congr
        intro r c _ _ _ _
        rw [if_neg (show ¬ (i < i ∧ i < j ∧ i ≤ c) by omega)]
        by_cases h : r = j ∧ i ≤ c
        · obtain ⟨rfl, h⟩ := h
          rw [if_pos ⟨rfl, h⟩, if_neg (by omega), if_pos (by omega)]
        · rw [if_neg h]
          by_cases h2 : i < r ∧ r < j ∧ i ≤ c
          · rw [if_pos h2, if_pos (by omega)]
          · rw [if_neg h2, if_neg (by omega)])
  have e0 : (Dense.ofFn n n l, Dense.ofFn n n u)
      = (Dense.ofFn n n (fun r c => if i < r ∧ r < i + 1 ∧ c = i then u r i / u i i else l r c),
      Dense.ofFn n n (fun r c => if i < r ∧ r < i + 1 ∧ i ≤ c then u r c - u r i / u i i * u i c else u r c)) := by
    congr 1 <;> (apply Dense.ofFn_congr; intro r c _ _ _ _; rw [if_neg (by omega)])
  rw [e0, e, ok_bind]
  simp only
  rw [Dense.put_ofFn _ hi hi' hi hi', ok_bind]
  congr 2
  · apply Dense.ofFn_congr
    intro r c _ hr _ _
    unfold nextL
    by_cases hc : c = i
    · subst hc
      by_cases hr2 : r = c
      · simp [hr2]
      · rw [if_neg (by tauto), if_pos rfl, if_neg hr2]
        by_cases h3 : c < r
        · rw [if_pos h3, if_pos ⟨h3, hr, rfl⟩]
        · rw [if_neg h3, if_neg (by tauto)]
    · rw [if_neg (by tauto), if_neg (by tauto), if_neg hc]
  · apply Dense.ofFn_congr
    intro r c _ hr _ _
    unfold nextU
    by_cases h : i < r ∧ i ≤ c
    · rw [if_pos h, if_pos ⟨h.1, hr, h.2⟩]
    · rw [if_neg h, if_neg (by tauto)]

theorem luDecomp_eq {n : Nat} (a : Int → Int → F) :
    Flt.luDecomp (Dense.ofFn n n a) = .ok (Dense.ofFn n n (luSeq a n).1, Dense.ofFn n n (luSeq a n).2) := by
  unfold Flt.luDecomp
  rw [Dense.ofFn_rows, Dense.zeros_ofFn, ok_bind]
  obtain ⟨s', e, rfl⟩ := forUp_inv_nat (n := n) (f := fun i s => do
      let s ← forUp (i + 1) (n : Int) s (fun j s => Flt.luElim n i j s)
      let L ← s.1.put i i 1
      .ok (L, s.2))
    (fun i s => s = (Dense.ofFn n n (luSeq a i).1, Dense.ofFn n n (luSeq a i).2))
    (s := (Dense.ofFn n n (luSeq a 0).1, Dense.ofFn n n (luSeq a 0).2)) rfl (by
      rintro i s hi rfl
      exact ⟨_, luStep_eq (by omega) (by omega) _ _, rfl⟩)
  exact e

end Flt

theorem subAll_concat (c : F) (l : List F) (a : F) : subAll c (l ++ [a]) = subAll c l - a := by
  unfold subAll
  rw [List.foldl_append]
  rfl

/-- An entry of `U` before pass `k`. -/
theorem luSeq_sub (a : Int → Int → F) (k i c : Nat) (hi : k ≤ i) (hc : k ≤ c + 1) :
    (luSeq a k).2 i c = subAll (a i c) ((List.range k).map (fun t : Nat => (luSeq a (t + 1)).1 i t * (luSeq a t).2 t c)) := by
  induction k with
  | zero => rfl
  | succ k ih =>
    rw [List.range_succ, List.map_append, List.map_singleton, subAll_concat, ← ih (by omega) (by omega)]
    simp only [luSeq]
    unfold nextU nextL
    rw [if_pos (by omega), if_pos rfl, if_neg (by omega), if_pos (by omega)]

/-- Column `c` of `U` does not change after pass `c`. -/
theorem luSeq_below (a : Int → Int → F) (k c : Nat) (h : c < k) (i : Int) : (luSeq a k).2 i c = (luSeq a (c + 1)).2 i c := by
  induction k with
  | zero => omega
  | succ k ih =>
    by_cases hk : k = c
    · rw [hk]
    · rw [← ih (by omega)]
      simp only [luSeq]
      unfold nextU
      rw [if_neg (by omega)]

/-- The products subtracted from the entry at `(i, c)` before pass `k`. -/
def luProducts (L U : Dense F) (k i c : Nat) : List F := (List.range k).map (fun t : Nat => L.entry i t * U.entry t c)

/-- **C131.**  `lu_decomp` of a square matrix always returns.  The entries are those of the elimination, with every operation in the order of the code; nothing
is said about what a division by zero leaves in them.  An entry of `U` below the diagonal is what is left of it, not a zero. -/
theorem C131_lu (A : Dense F) (hA : A.WF) (n : Nat) (hr : A.rows = n) (hc : A.cols = n) : ∃ L U, Flt.luDecomp A = .ok (L, U) ∧
    L.Is n n L.entry ∧ U.Is n n U.entry ∧ ∀ i c : Nat, i < n → c < n →
      (i ≤ c → U.entry i c = subAll (A.entry i c) (luProducts L U i i c)) ∧
      (c < i → L.entry i c = subAll (A.entry i c) (luProducts L U c i c) / U.entry c c ∧
        U.entry i c = subAll (A.entry i c) (luProducts L U (c + 1) i c)) ∧
      (c = i → L.entry i c = 1) ∧ (i < c → L.entry i c = 0) := by
  have hE := hA.eq_ofFn
  rw [hr, hc] at hE
  simp only [Int.toNat_natCast] at hE
  obtain ⟨a, ha⟩ : ∃ a, a = A.entry := ⟨_, rfl⟩
  rw [← ha] at hE ⊢
  refine ⟨_, _, by rw [hE]; exact Flt.luDecomp_eq a, ?_⟩
  have eL := Dense.is_ofFn n n (luSeq a n).1
  have eU := Dense.is_ofFn n n (luSeq a n).2
  have gL : ∀ i j : Int, 0 ≤ i → i < n → 0 ≤ j → j < n → (Dense.ofFn n n (luSeq a n).1).entry i j = (luSeq a n).1 i j :=
    fun i j h0 h1 h2 h3 => Dense.entry_ofFn h0 h1 h2 h3
  have gU : ∀ i j : Int, 0 ≤ i → i < n → 0 ≤ j → j < n → (Dense.ofFn n n (luSeq a n).2).entry i j = (luSeq a n).2 i j :=
    fun i j h0 h1 h2 h3 => Dense.entry_ofFn h0 h1 h2 h3
  refine ⟨eL.congr (fun i j h0 h1 h2 h3 => (gL i j h0 h1 h2 h3).symm), eU.congr (fun i j h0 h1 h2 h3 => (gU i j h0 h1 h2 h3).symm), ?_⟩
  intro i c hi hc
  have hP : ∀ k : Nat, k ≤ i → k ≤ n → luProducts (Dense.ofFn n n (luSeq a n).1) (Dense.ofFn n n (luSeq a n).2) k i c
      = (List.range k).map (fun t : Nat => (luSeq a (t + 1)).1 i t * (luSeq a t).2 t c) := by
    intro k hk hkn
    unfold luProducts
    apply List.map_congr_left
    intro t ht
    have ht := List.mem_range.mp ht
    rw [gL i t (by omega) (by omega) (by omega) (by omega), gU t c (by omega) (by omega) (by omega) (by omega),
      luSeq_col a t n (by omega), luSeq_row a t n (by omega)]
  rw [gU i c (by omega) (by omega) (by omega) (by omega), gL i c (by omega) (by omega) (by omega) (by omega)]
  refine ⟨fun h => ?_, fun h => ⟨?_, ?_⟩, fun h => ?_, fun h => ?_⟩
  · rw [hP i le_rfl (by omega), luSeq_row a i n (by omega), luSeq_sub a i i c le_rfl (by omega)]
  · rw [hP c (by omega) (by omega), gU c c (by omega) (by omega) (by omega) (by omega), luSeq_row a c n (by omega), luSeq_col a c n hc,
      ← luSeq_sub a c i c (by omega) (by omega)]
    simp only [luSeq]
    unfold nextL
    rw [if_pos rfl, if_neg (by omega), if_pos (by omega)]
  · rw [hP (c + 1) (by omega) (by omega), luSeq_below a n c hc, luSeq_sub a (c + 1) i c (by omega) le_rfl]
  · subst h
    rw [luSeq_col a c n hc]
    simp only [luSeq]
    unfold nextL
    rw [if_pos rfl, if_pos rfl]
  · exact luSeq_above a n i c (by omega)

/-! ## The triangular solves -/

theorem subUp_loop {a b : Int} (hab : a ≤ b) (g : Int → F) (body : Int → F → Res F) (c : F)
    (hb : ∀ (j : Int) v, a ≤ j → j < b → body j v = .ok (v - g j)) :
    forUp a b c body = .ok (subAll c ((iota (b - a).toNat).map (fun k => g (a + k)))) := by
  obtain ⟨n, hn⟩ : ∃ n : Nat, b = a + n := ⟨(b - a).toNat, by omega⟩
  have e : forUp a b c body = .ok (subAll c ((List.range n).map (fun k : Nat => g (a + k)))) := by
    induction n generalizing b with
    | zero =>
      rw [forUp_nil (by omega)]
      rfl
    | succ n ih =>
      obtain rfl : b = (a + n) + 1 := by omega
      rw [forUp_last (by omega), ih (by omega) (fun j v h0 h1 => hb j v h0 (by omega)) rfl, ok_bind, hb _ _ (by omega) (by omega), List.range_succ,
        List.map_append, List.map_singleton, subAll_concat]
  rw [e, show (b - a).toNat = n by omega]
  unfold iota
  rw [List.map_map]
  rfl

theorem subDown_loop {n : Int} (hn : 0 ≤ n) (g : Int → F) (body : Int → F → Res F) (c : F)
    (hb : ∀ (j : Int) v, 0 ≤ j → j < n → body j v = .ok (v - g j)) :
    forDown (n - 1) (-1) c body = .ok (subAll c ((iota n.toNat).map (fun k => g (n - 1 - k)))) := by
  unfold forDown
  rw [subUp_loop (by omega) (fun k => g (n - 1 - k)) _ c (fun j v h0 h1 => hb _ v (by omega) (by omega))]
  rw [show (n - 1 - -1 - 0).toNat = n.toNat by omega]
  simp only [zero_add]

/-- **C131.**  `forward_elim` of an `n x n` matrix always returns; every element is what the equation of its row gives from the elements before it. -/
theorem C131_forward (L : Dense F) (hL : L.WF) (n : Nat) (hr : L.rows = n) (hc : L.cols = n) (b : List F) (hb : b.length = n) :
    ∃ x, Flt.forwardElim L b = .ok x ∧ x.length = n ∧ ∀ i : Nat, i < n →
      vecAt x i = subAll (vecAt b i) ((iota i).map (fun k => L.entry i (i - 1 - k) * vecAt x (i - 1 - k))) / L.entry i i := by
  have hE := hL.eq_ofFn
  rw [hr, hc] at hE
  simp only [Int.toNat_natCast] at hE
  obtain ⟨l, hl⟩ : ∃ l, l = L.entry := ⟨_, rfl⟩
  have hE' : L = Dense.ofFn n n l := by rw [hl]; exact hE
  have hbE : b = vecFn n (vecAt b) := by rw [← hb]; exact eq_vecFn_vecAt b
  rw [← hl]
  clear hl hE
  subst hE'
  unfold Flt.forwardElim
  rw [Dense.ofFn_rows, mkVec_nat, ok_bind, replicate_vecFn]
  obtain ⟨s, e, f, rfl, hf⟩ := forUp_inv (a := 0) (b := n) (by omega)
    (f := fun i x => do
      let b0 ← vrd b i
      let s ← forDown (i - 1) (-1) b0 (fun j s => do
        let l ← (Dense.ofFn n n l).get i j
        let xj ← vrd x j
        .ok (s - l * xj))
      let d ← (Dense.ofFn n n l).get i i
      vwr x i (s / d))
    (fun k x => ∃ f, x = vecFn n f ∧ ∀ i : Nat, (i : Int) < k →
      f i = subAll (vecAt b i) ((iota i).map (fun k => l i (i - 1 - k) * f (i - 1 - k))) / l i i)
    (s := vecFn n (fun _ => 0)) ⟨_, rfl, by intro i h0; omega⟩ (by
      rintro i s i0 i1 ⟨f, rfl, hf⟩
      refine ⟨vecFn n (fun a => if a = i then subAll (vecAt b i) ((iota i.toNat).map (fun k => l i (i - 1 - k) * f (i - 1 - k))) / l i i else f a), ?_, _, rfl, ?_⟩
      · rw [hbE, vrd_vecFn i0 i1, ok_bind, ← hbE, subDown_loop i0 (fun j => l i j * f j) _ _ (fun j v j0 j1 => by
          rw [Dense.get_ofFn i0 i1 j0 (by omega), ok_bind, vrd_vecFn j0 (by omega), ok_bind]),
          ok_bind, Dense.get_ofFn i0 i1 i0 i1, ok_bind, vwr_vecFn _ i0 i1]
      · intro r hri
        beta_reduce
        have hm : ∀ v : F, (iota r).map (fun k => l r (r - 1 - k) * if (r : Int) - 1 - k = i then v else f (r - 1 - k))
            = (iota r).map (fun k => l r (r - 1 - k) * f (r - 1 - k)) := by
          intro v
          apply List.map_congr_left
          intro k hk
          have := mem_iota.mp hk
          rw [if_neg (by omega)]
        by_cases h : (r : Int) = i
        · rw [if_pos h, hm, ← h, Int.toNat_natCast]
        · rw [if_neg h, hm, hf r (by omega)])
  refine ⟨_, e, by simp, ?_⟩
  intro i hi
  rw [vecAt_fn _ (by omega) (by omega), hf i (by omega)]
  congr 2
  apply List.map_congr_left
  intro k hk
  have := mem_iota.mp hk
  rw [vecAt_fn _ (by omega) (by omega)]

/-- **C131.**  `back_solve` of an `n x n` matrix always returns; every element is what the equation of its row gives from the elements after it. -/
theorem C131_back (U : Dense F) (hU : U.WF) (n : Nat) (hr : U.rows = n) (hc : U.cols = n) (b : List F) (hb : b.length = n) :
    ∃ x, Flt.backSolve U b = .ok x ∧ x.length = n ∧ ∀ i : Nat, i < n →
      vecAt x i = subAll (vecAt b i) ((iota (n - (i + 1))).map (fun k => U.entry i (i + 1 + k) * vecAt x (i + 1 + k))) / U.entry i i := by
  have hE := hU.eq_ofFn
  rw [hr, hc] at hE
  simp only [Int.toNat_natCast] at hE
  obtain ⟨u, hu⟩ : ∃ u, u = U.entry := ⟨_, rfl⟩
  have hE' : U = Dense.ofFn n n u := by rw [hu]; exact hE
  have hbE : b = vecFn n (vecAt b) := by rw [← hb]; exact eq_vecFn_vecAt b
  rw [← hu]
  clear hu hE
  subst hE'
  unfold Flt.backSolve forDown
  rw [Dense.ofFn_rows, mkVec_nat, ok_bind, replicate_vecFn]
  obtain ⟨s, e, f, rfl, hf⟩ := forUp_inv (a := 0) (b := (n : Int) - 1 - -1) (by omega)
    (f := fun k x => do
      let b0 ← vrd b ((n : Int) - 1 - k)
      let s ← forUp ((n : Int) - 1 - k + 1) n b0 (fun j s => do
        let u ← (Dense.ofFn n n u).get ((n : Int) - 1 - k) j
        let xj ← vrd x j
        .ok (s - u * xj))
      let d ← (Dense.ofFn n n u).get ((n : Int) - 1 - k) ((n : Int) - 1 - k)
      vwr x ((n : Int) - 1 - k) (s / d))
    (fun k x => ∃ f, x = vecFn n f ∧ ∀ i : Nat, i < n → (n : Int) - k ≤ i →
      f i = subAll (vecAt b i) ((iota (n - (i + 1))).map (fun k => u i (i + 1 + k) * f (i + 1 + k))) / u i i)
    (s := vecFn n (fun _ => 0)) ⟨_, rfl, by intro i h0 h1; omega⟩ (by
      rintro k s k0 k1 ⟨f, rfl, hf⟩
      obtain ⟨i, hi⟩ : ∃ i, i = (n : Int) - 1 - k := ⟨_, rfl⟩
      simp only [← hi]
      have i0 : 0 ≤ i := by omega
      have i1 : i < n := by omega
      refine ⟨vecFn n (fun a => if a = i then subAll (vecAt b i) ((iota ((n : Int) - (i + 1)).toNat).map (fun k => u i (i + 1 + k) * f (i + 1 + k))) / u i i
        else f a), ?_, _, rfl, ?_⟩
      · rw [hbE, vrd_vecFn i0 i1, ok_bind, ← hbE, subUp_loop (by omega) (fun j => u i j * f j) _ _ (fun j v j0 j1 => by
          rw [Dense.get_ofFn i0 i1 (by omega) j1, ok_bind, vrd_vecFn (by omega) j1, ok_bind]),
          ok_bind, Dense.get_ofFn i0 i1 i0 i1, ok_bind, vwr_vecFn _ i0 i1]
      · intro r hr1 hri
        beta_reduce
        have hm : ∀ v : F, (iota (n - (r + 1))).map (fun k => u r (r + 1 + k) * if (r : Int) + 1 + k = i then v else f (r + 1 + k))
            = (iota (n - (r + 1))).map (fun k => u r (r + 1 + k) * f (r + 1 + k)) := by
          intro v
          apply List.map_congr_left
          intro k hk
          have := mem_iota.mp hk
          rw [if_neg (by omega)]
        by_cases h : (r : Int) = i
        · rw [if_pos h, hm, ← h, show ((n : Int) - (r + 1)).toNat = n - (r + 1) by omega]
        · rw [if_neg h, hm, hf r hr1 (by omega)])
  refine ⟨_, e, by simp, ?_⟩
  intro i hi
  rw [vecAt_fn _ (by omega) (by omega), hf i hi (by omega)]
  congr 2
  apply List.map_congr_left
  intro k hk
  have := mem_iota.mp hk
  rw [vecAt_fn _ (by omega) (by omega)]

theorem subAll_fin [RoundLaws F] {c : F} {l : List F} (h : IsFin (subAll c l)) : IsFin c ∧ ∀ p ∈ l, IsFin p := by
  induction l using List.reverseRecOn with
  | nil => exact ⟨h, fun p hp => by cases hp⟩
  | append_singleton l a ih =>
    rw [subAll_concat] at h
    obtain ⟨h1, h2, -⟩ := RoundLaws.sub _ _ h
    obtain ⟨h3, h4⟩ := ih h1
    refine ⟨h3, fun p hp => ?_⟩
    rcases List.mem_append.mp hp with hp | hp
    · exact h4 p hp
    · rw [List.mem_singleton.mp hp]
      exact h2

/-- **C131.**  If every element of the solution of `solve_lu` is finite then nothing went wrong on the way that it hides: no diagonal entry of `L` or `U` is zero
or NaN, and the right-hand side and every entry of `L` below and of `U` above the diagonal are finite. -/
theorem C131_finite [RoundLaws F] [DivLaws F] (L U : Dense F) (hL : L.WF) (hU : U.WF) (n : Nat) (hr : L.rows = n) (hc : L.cols = n) (hr' : U.rows = n)
    (hc' : U.cols = n) (b : List F) (hb : b.length = n) :
    ∃ x, Flt.solveLu L U b = .ok x ∧ x.length = n ∧ ((∀ i : Nat, i < n → IsFin (vecAt x i)) → ∀ i : Nat, i < n →
      IsFin (vecAt b i) ∧ (¬ IsZero (L.entry i i) ∧ ¬ IsNan (L.entry i i)) ∧ (¬ IsZero (U.entry i i) ∧ ¬ IsNan (U.entry i i)) ∧
      (∀ j : Nat, j < i → IsFin (L.entry i j)) ∧ ∀ j : Nat, i < j → j < n → IsFin (U.entry i j)) := by
  obtain ⟨y, e1, y1, y2⟩ := C131_forward L hL n hr hc b hb
  obtain ⟨x, e2, x1, x2⟩ := C131_back U hU n hr' hc' y y1
  unfold Flt.solveLu
  refine ⟨x, by rw [e1, ok_bind, e2], x1, fun hfin i hi => ?_⟩
  have hy : ∀ i : Nat, i < n → IsFin (vecAt y i) := by
    intro i hi
    have h := hfin i hi
    rw [x2 i hi] at h
    exact (subAll_fin (DivLaws.num _ _ h)).1
  have hx := hfin i hi
  rw [x2 i hi] at hx
  have hy' := hy i hi
  rw [y2 i hi] at hy'
  have fx := (subAll_fin (DivLaws.num _ _ hx)).2
  have fy := subAll_fin (DivLaws.num _ _ hy')
  refine ⟨fy.1, ⟨fun h => DivLaws.zero _ _ h hy', fun h => DivLaws.nan _ _ h hy'⟩, ⟨fun h => DivLaws.zero _ _ h hx, fun h => DivLaws.nan _ _ h hx⟩, ?_, ?_⟩
  · intro j hj
    have h := fy.2 _ (List.mem_map.mpr ⟨(i : Int) - 1 - j, mem_iota.mpr (by omega), rfl⟩)
    rw [show (i : Int) - 1 - (i - 1 - j) = j by omega] at h
    exact (RoundLaws.mul _ _ h).1
  · intro j hj hn
    have h := fx _ (List.mem_map.mpr ⟨(j : Int) - (i + 1), mem_iota.mpr (by omega), rfl⟩)
    rw [show (i : Int) + 1 + (j - (i + 1)) = j by omega] at h
    exact (RoundLaws.mul _ _ h).1

/-! ## Runs in double precision -/

/-- **C131 (a pivot that is zero).**  For an invertible matrix of doubles with a zero in the first place, `lu_decomp` and `solve_lu` return without an error, and
every element of the "solution" is NaN. -/
theorem C131_lu_false : ∃ (A : Dense Dbl) (b : List Dbl), A.WF ∧ A.data.map Dbl.toRat = [0, 1, 1, 0] ∧ ∃ L U x, Flt.luDecomp A = .ok (L, U) ∧
    Flt.solveLu L U b = .ok x ∧ x.length = 2 ∧ ∀ a ∈ x, IsNan a :=
  ⟨⟨2, 2, [Dbl.of 0, Dbl.of 1, Dbl.of 1, Dbl.of 0]⟩, [Dbl.of 1, Dbl.of 2], by decide +kernel, by decide +kernel,
    ⟨2, 2, [Dbl.of 1, ⟨.inf false, fun _ e => by cases e⟩, Dbl.of 0, Dbl.of 1]⟩,
    ⟨2, 2, [Dbl.of 0, ⟨.nan, fun _ e => by cases e⟩, Dbl.of 1, ⟨.inf true, fun _ e => by cases e⟩]⟩,
    [⟨.nan, fun _ e => by cases e⟩, ⟨.nan, fun _ e => by cases e⟩], by decide +kernel, by decide +kernel, rfl, by decide +kernel⟩

/-- C131: a system that is solved, with its solution finite. -/
example : ∃ (A : Dense Dbl) (L U : Dense Dbl) (x : List Dbl), A.WF ∧ A.rows = 2 ∧ A.cols = 2 ∧ Flt.luDecomp A = .ok (L, U) ∧ L.WF ∧ U.WF ∧
    Flt.solveLu L U [Dbl.of 5, Dbl.of 8] = .ok x ∧ x.map Dbl.toRat = [1, 2] :=
  ⟨⟨2, 2, [Dbl.of 1, Dbl.of 2, Dbl.of 2, Dbl.of 3]⟩, ⟨2, 2, [Dbl.of 1, Dbl.of 2, Dbl.of 0, Dbl.of 1]⟩,
    ⟨2, 2, [Dbl.of 1, Dbl.of 0, Dbl.of 2, Dbl.of (-1)]⟩, [Dbl.of 1, Dbl.of 2], by decide +kernel, rfl, rfl, by decide +kernel, by decide +kernel,
    by decide +kernel, by decide +kernel, by decide +kernel⟩

/-- C131: `1 / x` with a zero in `x`, and a NaN that passes the assertion of `InverseScaleRows`. -/
example : ∃ (x : List Dbl) (A : Csr Dbl) (d : List Dbl), IsZero (vecAt x 1) ∧ (Flt.scalarOver (Dbl.of 1) x).map (fun a => a.ext) = [.fin (1 / 2), .inf false] ∧
    A.WF ∧ (d.length : Int) = A.rows ∧ (∀ s ∈ d, ¬ IsZero s) ∧ IsNan (vecAt d 1) ∧ ∃ B, Flt.sparseInvRows A d = .ok B ∧
      B.data.map (fun a => a.ext) = [.fin 2, .nan] :=
  ⟨[Dbl.of 2, Dbl.of 0], ⟨2, 2, [0, 1, 2], [0, 1], [Dbl.of 4, Dbl.of 4]⟩, [Dbl.of 2, ⟨.nan, fun _ e => by cases e⟩],
    by unfold IsZero; decide +kernel, by decide +kernel, by decide +kernel, by decide +kernel, by unfold IsZero; decide +kernel, by decide +kernel,
    ⟨2, 2, [0, 1, 2], [0, 1], [Dbl.of 2, ⟨.nan, fun _ e => by cases e⟩]⟩, by decide +kernel, by decide +kernel⟩

end Linalg
