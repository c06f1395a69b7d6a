import Verif.Props.SolverApi

/-!
# What the vector returned by conjugate gradients minimises (C124)
-/

set_option linter.unusedSectionVars false

namespace Linalg
open Cpp

namespace Cg

variable {K V : Type} [Field K] [LinearOrder K] [IsStrictOrderedRing K] [AddCommGroup V] [Module K V] {B : V → V → K} {L G : V → V} {b x : V}

theorem p_krylov (hL : Lin (K := K) L) (hG : Lin (K := K) G) (k : Nat) :
    (seq B L G b x k).p ∈ Mr.krylov K L G (b - L x) (k + 1) ∧ (seq B L G b x k).z ∈ Mr.krylov K L G (b - L x) (k + 1) := by
  induction k with
  | zero => exact ⟨Submodule.subset_span ⟨0, by simp, rfl⟩, Submodule.subset_span ⟨0, by simp, rfl⟩⟩
  | succ k ih =>
    have hz : (seq B L G b x (k + 1)).z ∈ Mr.krylov K L G (b - L x) (k + 1 + 1) := by
      have e : (seq B L G b x (k + 1)).z = (seq B L G b x k).z - alpha B L (seq B L G b x k) • G (L (seq B L G b x k).p) := by
        rw [precond, precond]
        show G ((seq B L G b x k).r - alpha B L (seq B L G b x k) • L (seq B L G b x k).p) = _
        rw [hG.sub, hG.smul]
      rw [e]
      exact Submodule.sub_mem _ (Mr.krylov_mono (Nat.le_succ _) ih.2) (Submodule.smul_mem _ _ (Mr.krylov_step hL hG ih.1))
    exact ⟨Submodule.add_mem _ (Submodule.smul_mem _ _ (Mr.krylov_mono (Nat.le_succ _) ih.1)) hz, hz⟩

theorem x_krylov (hL : Lin (K := K) L) (hG : Lin (K := K) G) (k : Nat) :
    (seq B L G b x k).x - x ∈ Mr.krylov K L G (b - L x) k := by
  induction k with
  | zero =>
    show x - x ∈ _
    rw [sub_self]
    exact Submodule.zero_mem _
  | succ k ih =>
    have e : (seq B L G b x (k + 1)).x - x = ((seq B L G b x k).x - x) + alpha B L (seq B L G b x k) • (seq B L G b x k).p := by
      show (seq B L G b x k).x + alpha B L (seq B L G b x k) • (seq B L G b x k).p - x = _
      abel
    rw [e]
    exact Submodule.add_mem _ (Mr.krylov_mono (Nat.le_succ _) ih) (Submodule.smul_mem _ _ (p_krylov hL hG k).1)

/-- The first `k` directions. -/
def dirs (B : V → V → K) (L G : V → V) (b x : V) (k : Nat) : Submodule K V :=
  Submodule.span K ((fun j => (seq B L G b x j).p) '' {j | j < k})

theorem dirs_mono {k l : Nat} (h : k ≤ l) : dirs B L G b x k ≤ dirs B L G b x l :=
  Submodule.span_mono (Set.image_mono (fun _ hj => lt_of_lt_of_le hj h))

theorem p_dirs (k : Nat) : (seq B L G b x k).p ∈ dirs B L G b x (k + 1) := Submodule.subset_span ⟨k, by simp, rfl⟩

theorem z_dirs (k : Nat) : (seq B L G b x k).z ∈ dirs B L G b x (k + 1) := by
  cases k with
  | zero => exact p_dirs 0
  | succ k =>
    have e : (seq B L G b x (k + 1)).z = (seq B L G b x (k + 1)).p
        - (B (seq B L G b x (k + 1)).z (seq B L G b x (k + 1)).r / B (seq B L G b x k).z (seq B L G b x k).r) • (seq B L G b x k).p := by
      show _ = (_ • (seq B L G b x k).p + (seq B L G b x (k + 1)).z) - _ • (seq B L G b x k).p
      exact (add_sub_cancel_left _ _).symm
    rw [e]
    exact Submodule.sub_mem _ (p_dirs _) (Submodule.smul_mem _ _ (dirs_mono (Nat.le_succ _) (p_dirs k)))

/-- As long as nothing breaks down, the Krylov space is spanned by the directions. -/
theorem kry_dirs (hL : Lin (K := K) L) (hG : Lin (K := K) G) (k : Nat) (hk : NoBreak B L G b x k) :
    Mr.kry L G (b - L x) k ∈ dirs B L G b x (k + 1) := by
  induction k with
  | zero => exact p_dirs 0
  | succ k ih =>
    have I := ih (fun j hj => hk j (by omega))
    show G (L (Mr.kry L G (b - L x) k)) ∈ _
    generalize Mr.kry L G (b - L x) k = y at I
    unfold dirs at I
    induction I using Submodule.span_induction with
    | mem y hy =>
      obtain ⟨j, hj, rfl⟩ := hy
      have hj : j < k + 1 := hj
      obtain ⟨h1, h2⟩ := hk j hj
      have ha : alpha B L (seq B L G b x j) ≠ 0 := div_ne_zero h2 h1
      have e : G (L (seq B L G b x j).p) = (alpha B L (seq B L G b x j))⁻¹ • ((seq B L G b x j).z - (seq B L G b x (j + 1)).z) := by
        rw [precond, precond]
        show _ = _ • (G (seq B L G b x j).r - G ((seq B L G b x j).r - alpha B L (seq B L G b x j) • L (seq B L G b x j).p))
        rw [hG.sub, hG.smul, sub_sub_cancel, smul_smul, inv_mul_cancel₀ ha, one_smul]
      show G (L (seq B L G b x j).p) ∈ _
      rw [e]
      exact Submodule.smul_mem _ _ (Submodule.sub_mem _ (dirs_mono (by omega) (z_dirs j)) (dirs_mono (by omega) (z_dirs (j + 1))))
    | zero => rw [Mr.Lin.zero hL, Mr.Lin.zero hG]; exact Submodule.zero_mem _
    | add u v _ _ h1 h2 => rw [hL.add, hG.add]; exact Submodule.add_mem _ h1 h2
    | smul c u _ h => rw [hL.smul, hG.smul]; exact Submodule.smul_mem _ _ h

theorem krylov_orth (hB : Bilin B) (hL : Lin (K := K) L) (hG : Lin (K := K) G) (sL : ∀ u v, B (L u) v = B u (L v))
    (sG : ∀ u v, B (G u) v = B u (G v)) (k : Nat) (hk : NoBreak B L G b x k) (y : V) (hy : y ∈ Mr.krylov K L G (b - L x) k) :
    B y (seq B L G b x k).r = 0 := by
  have hz : B 0 (seq B L G b x k).r = 0 := by rw [← zero_smul K (0 : V), hB.smul_left, zero_mul]
  have hd : ∀ y ∈ dirs B L G b x k, B y (seq B L G b x k).r = 0 := by
    intro y hy
    unfold dirs at hy
    induction hy using Submodule.span_induction with
    | mem y hy =>
      obtain ⟨j, hj, rfl⟩ := hy
      exact (rel hB hL sL sG b x k hk).p_r j hj
    | zero => exact hz
    | add u v _ _ h1 h2 => rw [hB.add_left, h1, h2, add_zero]
    | smul c u _ h => rw [hB.smul_left, h, mul_zero]
  unfold Mr.krylov at hy
  induction hy using Submodule.span_induction with
  | mem y hy =>
    obtain ⟨j, hj, rfl⟩ := hy
    have hj : j < k := hj
    exact hd _ (dirs_mono (by omega) (kry_dirs hL hG j (fun i hi => hk i (by omega))))
  | zero => exact hz
  | add u v _ _ h1 h2 => rw [hB.add_left, h1, h2, add_zero]
  | smul c u _ h => rw [hB.smul_left, h, mul_zero]

end Cg

variable {K : Type} [Field K] [LinearOrder K] [IsStrictOrderedRing K]

/-- The square of the length of `v` in the norm of `a`. -/
def energy (n : Int) (a : Int → Int → K) (v : Int → K) : K := dotFn n v (matVec n a v)

/-- A combination of fewer vectors. -/
theorem comb_extend (x : List K) (u : Nat → Int → K) {k l : Nat} (h : k ≤ l) (c : Nat → K) :
    comb x u l (fun j => if j < k then c j else 0) = comb x u k c := by
  funext i
  unfold comb
  congr 1
  rw [← Finset.sum_subset (Finset.range_mono h) (fun j _ hj => by
    simp only
    rw [if_neg (by simpa using hj), zero_mul])]
  exact Finset.sum_congr rfl (fun j hj => by
    simp only
    rw [if_pos (Finset.mem_range.mp hj)])

/-- Once the residual is zero it stays zero. -/
theorem cg_zero_stays {n : Int} {a : Int → Int → K} {G : (Int → K) → Int → K} (b x : Int → K) {j k : Nat} (hjk : j ≤ k)
    (h : ZeroOn n (Cg.seq (dotFn n) (matVec n a) G b x j).r) : ZeroOn n (Cg.seq (dotFn n) (matVec n a) G b x k).r := by
  induction k, hjk using Nat.le_induction with
  | base => exact h
  | succ k _ ih =>
    intro i i0 i1
    have e : (Cg.seq (dotFn n) (matVec n a) G b x (k + 1)).r = (Cg.seq (dotFn n) (matVec n a) G b x k).r
      - Cg.alpha (dotFn n) (matVec n a) (Cg.seq (dotFn n) (matVec n a) G b x k) • matVec n a (Cg.seq (dotFn n) (matVec n a) G b x k).p := rfl
    rw [e]
    unfold Cg.alpha
    rw [dotFn_zero_left ih, zero_div, zero_smul, sub_zero]
    exact ih i i0 i1

theorem cg_core (S : Pcg K) (n : Nat) (a m : Int → Int → K) (h : S.Ok n a m) (hd : S.Spd n a m) (b x : List K)
    (hb : b.length = n) (hx : x.length = n) (w : PcgState K) (N : Int) (st : PcgState K) (he : S.mult b x w = .ok (N, st)) :
    ∃ k : Nat, st.applied = k + 1 ∧ (k : Int) ≤ max 1 (S.maxIter - 1) ∧
      (∃ c : Nat → K, ∀ i : Int, 0 ≤ i → i < n → vecAt st.x i = comb x (Mr.kry (matVec n a) (S.prec n m) (residFn n a b x)) k c i) ∧
      ∀ (f : Int → K) (c : Nat → K), (∀ i : Int, 0 ≤ i → i < n → matVec n a f i = vecAt b i) →
        energy n a (f - comb x (Mr.kry (matVec n a) (S.prec n m) (residFn n a b x)) k c)
          = energy n a (f - vecAt st.x) + energy n a (vecAt st.x - comb x (Mr.kry (matVec n a) (S.prec n m) (residFn n a b x)) k c) := by
  obtain ⟨k, hat, ha, hk, -⟩ := h.mult_result b x hb hx w N st he
  have hG : Cg.Lin (K := K) (S.prec n m) := by
    unfold Pcg.prec
    cases S.M with
    | none => exact ⟨fun _ _ => rfl, fun _ _ => rfl⟩
    | some M => exact matVec_isLin n m
  have hr0 : residFn n a b x = vecAt b - matVec n a (vecAt x) := rfl
  have hc : ∀ c, comb x (Mr.kry (matVec n a) (S.prec n m) (residFn n a b x)) k c
      = vecAt x + ∑ j ∈ Finset.range k, c j • Mr.kry (matVec n a) (S.prec n m) (residFn n a b x) j := by
    intro c
    funext i
    simp [comb, Finset.sum_apply]
  have hxk := Cg.x_krylov (B := dotFn (K := K) n) (b := vecAt b) (x := vecAt x) (matVec_isLin n a) hG k
  have hon : ∀ i, 0 ≤ i → i < (n : Int) → vecAt st.x i = (Cg.seq (dotFn n) (matVec n a) (S.prec n m) (vecAt b) (vecAt x) k).x i := by
    intro i i0 i1
    rw [hat.1]
    exact vecFn_getAt n _ i i0 i1
  refine ⟨k, by omega, hk, ?_, ?_⟩
  · obtain ⟨c, e⟩ := Mr.krylov_mem_iff.mp hxk
    refine ⟨c, fun i i0 i1 => ?_⟩
    rw [hon i i0 i1, hc, hr0, ← e]
    simp
  · intro f c hf
    have hor : ∀ y ∈ Mr.krylov K (matVec n a) (S.prec n m) (vecAt b - matVec n a (vecAt x)) k,
        dotFn n y (Cg.seq (dotFn n) (matVec n a) (S.prec n m) (vecAt b) (vecAt x) k).r = 0 := by
      by_cases hz : ∃ j, j < k ∧ ZeroOn n (Cg.seq (dotFn n) (matVec n a) (S.prec n m) (vecAt b) (vecAt x) j).r
      · obtain ⟨j, hj, hz⟩ := hz
        intro y _
        rw [dotFn_symm, dotFn_zero_left (cg_zero_stays _ _ hj.le hz)]
      · push Not at hz
        exact Cg.krylov_orth (dotFn_bilin n) (matVec_isLin n a) hG (dotFn_selfAdj hd.a_symm) hd.prec_symm k
          (cg_noBreak hd.a_symm hd.a_pos hd.prec_symm hd.prec_pos (vecAt b) (vecAt x) k hz)
    have hm : (Cg.seq (dotFn n) (matVec n a) (S.prec n m) (vecAt b) (vecAt x) k).x - comb x (Mr.kry (matVec n a) (S.prec n m) (residFn n a b x)) k c
        ∈ Mr.krylov K (matVec n a) (S.prec n m) (vecAt b - matVec n a (vecAt x)) k := by
      rw [hc, hr0, ← sub_sub]
      exact Submodule.sub_mem _ hxk (Mr.krylov_mem_iff.mpr ⟨c, rfl⟩)
    have hd0 := hor _ hm
    generalize comb x (Mr.kry (matVec n a) (S.prec n m) (residFn n a b x)) k c = y at hd0 ⊢
    have e1 : dotFn n (vecAt st.x - y) (matVec n a (f - vecAt st.x)) = 0 := by
      rw [← hd0]
      apply dotFn_congr
      · intro i i0 i1
        simp only [Pi.sub_apply, hon i i0 i1]
      · intro i i0 i1
        rw [resid_of_at hat i i0 i1, (matVec_isLin (n : Int) a).sub]
        simp only [Pi.sub_apply, hf i i0 i1]
        rfl
    have e2 : dotFn n (f - vecAt st.x) (matVec n a (vecAt st.x - y)) = 0 := by
      rw [← dotFn_selfAdj hd.a_symm, dotFn_symm, e1]
    unfold energy
    have e3 : f - y = (f - vecAt st.x) + (vecAt st.x - y) := by abel
    rw [e3, (matVec_isLin (n : Int) a).add, (dotFn_bilin (n : Int)).add_left, (dotFn_bilin (n : Int)).add_right, (dotFn_bilin (n : Int)).add_right, e1, e2]
    ring

/-- A vector of energy zero is zero, others have positive energy. -/
theorem energy_pos {n : Int} {a : Int → Int → K} (pa : PosDefOn n a) (v : Int → K) : 0 ≤ energy n a v ∧ (energy n a v = 0 ↔ ZeroOn n v) := by
  unfold energy
  by_cases h : ZeroOn n v
  · rw [dotFn_zero_left h]
    exact ⟨le_rfl, fun _ => h, fun _ => rfl⟩
  · exact ⟨(pa v h).le, fun e => absurd e (pa v h).ne', fun e => absurd e h⟩

/-- **C124.**  Whatever the tolerances and the limit, the vector CG returns for a symmetric positive definite system is the best that the Krylov vectors of the
passes made can give: it is a combination of them with the start, and the error of any other combination, in the norm of the matrix, is larger by exactly its
distance from the result. -/
theorem C124_cg (S : Pcg K) (n : Nat) (a m : Int → Int → K) (h : S.Ok n a m) (hd : S.Spd n a m) (hM : S.M = none) (b x : List K)
    (hb : b.length = n) (hx : x.length = n) (w : PcgState K) (N : Int) (st : PcgState K) (he : S.mult b x w = .ok (N, st)) :
    let u := krylovVec n a (residFn n a b x)
    ∃ k : Nat, st.applied = k + 1 ∧ (k : Int) ≤ max 1 (S.maxIter - 1) ∧
      (∃ c : Nat → K, ∀ i : Int, 0 ≤ i → i < n → vecAt st.x i = comb x u k c i) ∧
      ∀ (f : Int → K) (c : Nat → K), (∀ i : Int, 0 ≤ i → i < n → matVec n a f i = vecAt b i) →
        energy n a (f - comb x u k c) = energy n a (f - vecAt st.x) + energy n a (vecAt st.x - comb x u k c) := by
  intro u
  have hG : S.prec n m = id := by unfold Pcg.prec; rw [hM]; rfl
  have := cg_core S n a m h hd b x hb hx w N st he
  rw [hG, ← krylovVec_eq] at this
  exact this

/-- **C124.**  The same for PCG and the Krylov vectors of the preconditioned matrix. -/
theorem C124_pcg (S : Pcg K) (n : Nat) (a m : Int → Int → K) (h : S.Ok n a m) (hd : S.Spd n a m) (hM : S.M ≠ none) (b x : List K)
    (hb : b.length = n) (hx : x.length = n) (w : PcgState K) (N : Int) (st : PcgState K) (he : S.mult b x w = .ok (N, st)) :
    let u := krylovVecP n a m (residFn n a b x)
    ∃ k : Nat, st.applied = k + 1 ∧ (k : Int) ≤ max 1 (S.maxIter - 1) ∧
      (∃ c : Nat → K, ∀ i : Int, 0 ≤ i → i < n → vecAt st.x i = comb x u k c i) ∧
      ∀ (f : Int → K) (c : Nat → K), (∀ i : Int, 0 ≤ i → i < n → matVec n a f i = vecAt b i) →
        energy n a (f - comb x u k c) = energy n a (f - vecAt st.x) + energy n a (vecAt st.x - comb x u k c) := by
  intro u
  have hG : S.prec n m = matVec n m := by
    unfold Pcg.prec
    cases hS : S.M with
    | none => exact absurd hS hM
    | some M => rfl
  have := cg_core S n a m h hd b x hb hx w N st he
  rw [hG, ← krylovVecP_eq] at this
  exact this

/-- **C124.**  The error never grows, in the norm of the matrix: the result is no worse than the start, nor than the result of any solve of the same system from
the same start, with whatever tolerances and limit, that has made no more passes. -/
theorem C124_decreases (S S' : Pcg K) (n : Nat) (a m : Int → Int → K) (h : S.Ok n a m) (hd : S.Spd n a m) (h' : S'.Ok n a m) (hM : S'.M = S.M)
    (b x : List K) (hb : b.length = n) (hx : x.length = n) (w w' : PcgState K) (N N' : Int) (st st' : PcgState K)
    (he : S.mult b x w = .ok (N, st)) (he' : S'.mult b x w' = .ok (N', st')) (hle : st'.applied ≤ st.applied) (f : Int → K)
    (hf : ∀ i : Int, 0 ≤ i → i < n → matVec n a f i = vecAt b i) :
    energy n a (f - vecAt st.x) ≤ energy n a (f - vecAt st'.x) ∧ energy n a (f - vecAt st.x) ≤ energy n a (f - vecAt x) := by
  have hd' : S'.Spd n a m := ⟨hd.a_symm, hd.a_pos, by rw [hM]; exact hd.m_symm, by rw [hM]; exact hd.m_pos⟩
  obtain ⟨k, k1, -, -, k3⟩ := cg_core S n a m h hd b x hb hx w N st he
  obtain ⟨l, l1, -, ⟨c, l2⟩, -⟩ := cg_core S' n a m h' hd' b x hb hx w' N' st' he'
  have hp : S'.prec n m = S.prec n m := by unfold Pcg.prec; rw [hM]
  rw [hp] at l2
  constructor
  · have e := k3 f (fun j => if j < l then c j else 0) hf
    have hc : ∀ i : Int, 0 ≤ i → i < n → (f - comb x (Mr.kry (matVec n a) (S.prec n m) (residFn n a b x)) k (fun j => if j < l then c j else 0)) i = (f - vecAt st'.x) i := by
      intro i i0 i1
      rw [Pi.sub_apply, Pi.sub_apply, l2 i i0 i1, comb_extend x _ (by omega)]
    have hc2 : energy n a (f - comb x (Mr.kry (matVec n a) (S.prec n m) (residFn n a b x)) k (fun j => if j < l then c j else 0)) = energy n a (f - vecAt st'.x) := by
      unfold energy
      rw [matVec_congr _ a hc]
      exact dotFn_congr _ hc (fun _ _ _ => rfl)
    rw [← hc2, e]
    exact le_add_of_nonneg_right (energy_pos hd.a_pos _).1
  · have e := k3 f (fun _ => 0) hf
    have hc : comb x (Mr.kry (matVec n a) (S.prec n m) (residFn n a b x)) k (fun _ => 0) = vecAt x := by
      funext i
      simp [comb]
    rw [hc] at e
    rw [e]
    exact le_add_of_nonneg_right (energy_pos hd.a_pos _).1

/-- **C124.**  If a solution is among the combinations, it is what is returned. -/
theorem C124_exact (S : Pcg K) (n : Nat) (a m : Int → Int → K) (h : S.Ok n a m) (hd : S.Spd n a m) (hM : S.M = none) (b x : List K)
    (hb : b.length = n) (hx : x.length = n) (w : PcgState K) (N : Int) (st : PcgState K) (he : S.mult b x w = .ok (N, st)) (k : Nat)
    (hk : (k : Int) < st.applied) (c : Nat → K)
    (hc : ∀ i : Int, 0 ≤ i → i < n → matVec n a (comb x (krylovVec n a (residFn n a b x)) k c) i = vecAt b i) :
    ∀ i : Int, 0 ≤ i → i < n → matVec n a (vecAt st.x) i = vecAt b i ∧ vecAt st.x i = comb x (krylovVec n a (residFn n a b x)) k c i := by
  obtain ⟨l, l1, -, -, l3⟩ := C124_cg S n a m h hd hM b x hb hx w N st he
  have e0 : comb x (krylovVec n a (residFn n a b x)) l (fun j => if j < k then c j else 0) = comb x (krylovVec n a (residFn n a b x)) k c :=
    comb_extend x _ (by omega) c
  have e := l3 (comb x (krylovVec n a (residFn n a b x)) k c) (fun j => if j < k then c j else 0) hc
  rw [e0, sub_self] at e
  have z : energy n a (0 : Int → K) = 0 := (energy_pos hd.a_pos 0).2.2 (fun _ _ _ => rfl)
  rw [z] at e
  have p1 := (energy_pos hd.a_pos (comb x (krylovVec n a (residFn n a b x)) k c - vecAt st.x)).1
  have p2 := energy_pos hd.a_pos (vecAt st.x - comb x (krylovVec n a (residFn n a b x)) k c)
  have hz := p2.2.1 (by linarith [p2.1])
  have hon : ∀ i : Int, 0 ≤ i → i < n → vecAt st.x i = comb x (krylovVec n a (residFn n a b x)) k c i :=
    fun i i0 i1 => sub_eq_zero.mp (hz i i0 i1)
  intro i i0 i1
  exact ⟨by rw [matVec_congr _ a hon]; exact hc i i0 i1, hon i i0 i1⟩

omit [IsStrictOrderedRing K] in
/-- As many passes as the loop may make, none of which leaves it. -/
theorem Pcg.loop_of_full {S : Pcg K} {tol : K} {k : Nat} {s0 s1 : PcgState K} {t : Bool} (hr : S.Run tol k s0 t s1)
    (ht : t = false) (fuel : Nat) (hf : k = fuel + 1) (N : Int) : S.loop tol fuel N s0 = .ok (N + k, s1) := by
  induction hr generalizing fuel N with
  | nil s => omega
  | last s s' h => simp at ht
  | cons k s t s' s'' h r ih =>
    cases fuel with
    | zero =>
      obtain rfl : k = 0 := by omega
      subst ht
      cases r
      unfold loop
      rw [h, ok_bind]
      rfl
    | succ fuel =>
      unfold loop
      rw [h, ok_bind]
      simp only [Bool.false_eq_true, if_false]
      rw [ih ht fuel (by omega)]
      congr 2
      push_cast
      ring

/-- **C44.**  For symmetric positive definite `A` (and `M`) and a positive tolerance, `Mult` returns without error whatever the limit. -/
theorem C44_returns (S : Pcg K) (n : Nat) (a m : Int → Int → K) (h : S.Ok n a m) (hd : S.Spd n a m) (b x : List K)
    (hb : b.length = n) (hx : x.length = n) (w : PcgState K)
    (ht : 0 < max (dotFn n (S.prec n m (residFn n a b x)) (residFn n a b x) * S.relTol * S.relTol) (S.absTol * S.absTol)) :
    ∃ N st, S.mult b x w = .ok (N, st) ∧ st.x.length = n := by
  suffices hgoal : ∃ N st, S.mult b x w = .ok (N, st) by
    obtain ⟨N, st, e⟩ := hgoal
    exact ⟨N, st, e, (C42_residual S n a m h b x hb hx w N st e).1⟩
  have em := h.mult_eq b x hb hx w
  simp only at em
  rw [em]
  split
  · exact ⟨_, _, rfl⟩
  next h0 =>
  have hnz : ∀ k, (∀ j, j < k → ¬ dotFn n (Cg.seq (dotFn n) (matVec n a) (S.prec n m) (vecAt b) (vecAt x) j).z
      (Cg.seq (dotFn n) (matVec n a) (S.prec n m) (vecAt b) (vecAt x) j).r < S.tolFn n a m b x) →
      ∀ j, j < k → ¬ ZeroOn n (Cg.seq (dotFn n) (matVec n a) (S.prec n m) (vecAt b) (vecAt x) j).r := by
    intro k hk j hj hzj
    apply hk j hj
    rw [dotFn_symm, dotFn_zero_left hzj]
    exact ht
  by_cases hex : ∃ j, j ≤ (S.maxIter - 2).toNat + 1 ∧ dotFn n (Cg.seq (dotFn n) (matVec n a) (S.prec n m) (vecAt b) (vecAt x) j).z
      (Cg.seq (dotFn n) (matVec n a) (S.prec n m) (vecAt b) (vecAt x) j).r < S.tolFn n a m b x
  · classical
    obtain ⟨hle, hJ⟩ := Nat.find_spec hex
    have hmin : ∀ j, j < Nat.find hex → ¬ dotFn n (Cg.seq (dotFn n) (matVec n a) (S.prec n m) (vecAt b) (vecAt x) j).z
        (Cg.seq (dotFn n) (matVec n a) (S.prec n m) (vecAt b) (vecAt x) j).r < S.tolFn n a m b x :=
      fun j hj hl => Nat.find_min hex hj ⟨by omega, hl⟩
    generalize Nat.find hex = J at hJ hle hmin
    cases J with
    | zero => exact absurd hJ h0
    | succ J =>
      obtain ⟨Ap', r⟩ := h.run_ok (S.tolFn n a m b x) J (Cg.init (matVec n a) (S.prec n m) (vecAt b) (vecAt x))
        (vecFn n (matVec n a (vecAt x))) 1
        (fun j hj => by rw [← Cg.seq_eq]; exact cg_pAp_pos hd _ _ _ (hnz _ hmin) j (by omega))
        (fun j hj => by rw [← Cg.seq_eq]; exact (cg_zr_pos hd _ _ j (hnz _ hmin j (by omega))).ne')
        (fun j _ hj => by rw [← Cg.seq_eq]; exact hmin j (by omega))
      have es := h.step_eq (S.tolFn n a m b x) (Cg.seqFrom (dotFn n) (matVec n a) (S.prec n m)
        (Cg.init (matVec n a) (S.prec n m) (vecAt b) (vecAt x)) J) Ap' (1 + J)
      simp only at es
      have p0 := cg_pAp_pos hd (vecAt b) (vecAt x) (J + 1) (hnz _ hmin) J (by omega)
      rw [Cg.seq_eq] at p0
      have hJ' : dotFn n (Cg.step (dotFn n) (matVec n a) (S.prec n m) (Cg.seqFrom (dotFn n) (matVec n a) (S.prec n m)
        (Cg.init (matVec n a) (S.prec n m) (vecAt b) (vecAt x)) J)).z
        (Cg.step (dotFn n) (matVec n a) (S.prec n m) (Cg.seqFrom (dotFn n) (matVec n a) (S.prec n m)
        (Cg.init (matVec n a) (S.prec n m) (vecAt b) (vecAt x)) J)).r < S.tolFn n a m b x := by
        rw [Cg.seq_eq] at hJ; exact hJ
      rw [if_neg p0.ne', if_pos (lt_trans (neg_lt_zero.mpr (by positivity)) p0), if_pos hJ'] at es
      rw [Pcg.loop_of_run r rfl es _ (by omega)]
      exact ⟨_, _, rfl⟩
  · have hmin : ∀ j, j < (S.maxIter - 2).toNat + 2 → ¬ dotFn n (Cg.seq (dotFn n) (matVec n a) (S.prec n m) (vecAt b) (vecAt x) j).z
        (Cg.seq (dotFn n) (matVec n a) (S.prec n m) (vecAt b) (vecAt x) j).r < S.tolFn n a m b x :=
      fun j hj hl => hex ⟨j, by omega, hl⟩
    obtain ⟨Ap', r⟩ := h.run_ok (S.tolFn n a m b x) ((S.maxIter - 2).toNat + 1) (Cg.init (matVec n a) (S.prec n m) (vecAt b) (vecAt x))
      (vecFn n (matVec n a (vecAt x))) 1
      (fun j hj => by rw [← Cg.seq_eq]; exact cg_pAp_pos hd _ _ _ (hnz _ hmin) j (by omega))
      (fun j hj => by rw [← Cg.seq_eq]; exact (cg_zr_pos hd _ _ j (hnz _ hmin j (by omega))).ne')
      (fun j _ hj => by rw [← Cg.seq_eq]; exact hmin j (by omega))
    rw [Pcg.loop_of_full r rfl _ rfl]
    exact ⟨_, _, rfl⟩

/-- The solver of the concrete cases, stopped after one step. -/
def exOne : Pcg Rat := { exPcg with maxIter := 2 }

theorem exOne_ok : exOne.Ok ((2 : Nat) : Int) exSpd.coef exSpd.coef := ⟨exPcg_ok.A_mat, exPcg_ok.M_mat, rfl⟩
theorem exOne_spd : exOne.Spd ((2 : Nat) : Int) exSpd.coef exSpd.coef := ⟨exPcg_spd.a_symm, exPcg_spd.a_pos, exPcg_spd.m_symm, exPcg_spd.m_pos⟩

/-- One step from `(1, 1)` towards the solution `(7/5, 6/5)` of `[[2, 1], [1, 3]] f = (4, 5)`: the result `(9/7, 9/7)` is not the solution, and nearer
to it than every other `(1 + t, 1 + t)`. -/
example : ∃ N st, exOne.mult [4, 5] [1, 1] ⟨[], [], [], [], [], 0⟩ = .ok (N, st) ∧ st.x = [9 / 7, 9 / 7] ∧
    ∀ t : Rat, t ≠ 2 / 7 → energy ((2 : Nat) : Int) exSpd.coef (vecAt [7 / 5, 6 / 5] - vecAt st.x) <
      energy ((2 : Nat) : Int) exSpd.coef (vecAt [7 / 5, 6 / 5] - vecAt [1 + t, 1 + t]) := by
  have run : (exOne.mult [4, 5] [1, 1] ⟨[], [], [], [], [], 0⟩).map (fun t => (t.2.x, t.2.applied)) = .ok ([9 / 7, 9 / 7], 2) := by decide +kernel
  obtain ⟨N, st, e, -⟩ := C44_returns exOne 2 exSpd.coef exSpd.coef exOne_ok exOne_spd [4, 5] [1, 1] rfl rfl ⟨[], [], [], [], [], 0⟩
    (lt_max_of_lt_right (by decide +kernel))
  rw [e] at run
  have hx : st.x = [9 / 7, 9 / 7] := congrArg Prod.fst (Except.ok.inj run)
  have ha : st.applied = 2 := congrArg Prod.snd (Except.ok.inj run)
  refine ⟨N, st, e, hx, fun t ht => ?_⟩
  obtain ⟨k, k1, -, -, k2⟩ := C124_cg exOne 2 exSpd.coef exSpd.coef exOne_ok exOne_spd rfl [4, 5] [1, 1] rfl rfl _ N st e
  obtain rfl : k = 1 := by omega
  have hf : ∀ i : Int, 0 ≤ i → i < ((2 : Nat) : Int) → matVec ((2 : Nat) : Int) exSpd.coef (vecAt [7 / 5, 6 / 5]) i = vecAt [4, 5] i := by
    intro i i0 i1
    obtain rfl | rfl : i = 0 ∨ i = 1 := by omega
    all_goals decide +kernel
  have hr : ∀ i : Int, 0 ≤ i → i < ((2 : Nat) : Int) → residFn ((2 : Nat) : Int) exSpd.coef [4, 5] [1, 1] i = 1 := by
    intro i i0 i1
    obtain rfl | rfl : i = 0 ∨ i = 1 := by omega
    all_goals decide +kernel
  have hc : ∀ i : Int, 0 ≤ i → i < ((2 : Nat) : Int) →
      comb [1, 1] (krylovVec ((2 : Nat) : Int) exSpd.coef (residFn ((2 : Nat) : Int) exSpd.coef [4, 5] [1, 1])) 1 (fun _ => t) i = vecAt [1 + t, 1 + t] i := by
    intro i i0 i1
    have := hr i i0 i1
    simp only [comb, krylovVec, Finset.sum_range_one, Function.iterate_zero, id, this, mul_one]
    obtain rfl | rfl : i = 0 ∨ i = 1 := by omega
    all_goals rfl
  have key := k2 (vecAt [7 / 5, 6 / 5]) (fun _ => t) hf
  have hE : ∀ v v' : Int → Rat, (∀ i : Int, 0 ≤ i → i < ((2 : Nat) : Int) → v i = v' i) →
      energy ((2 : Nat) : Int) exSpd.coef v = energy ((2 : Nat) : Int) exSpd.coef v' := fun v v' h => by
    have ic : Finset.Ico (0 : Int) ((2 : Nat) : Int) = {0, 1} := by decide
    have h0 := h 0 (by decide) (by decide)
    have h1 := h 1 (by decide) (by decide)
    simp only [energy, dotFn, matVec, ic, Finset.sum_pair (show (0 : Int) ≠ 1 by decide), h0, h1]
  rw [hE (_ - comb _ _ _ _) (vecAt [7 / 5, 6 / 5] - vecAt [1 + t, 1 + t]) (fun i i0 i1 => by rw [Pi.sub_apply, Pi.sub_apply, hc i i0 i1])] at key
  rw [key]
  have pos : 0 < energy ((2 : Nat) : Int) exSpd.coef (vecAt st.x - comb [1, 1] (krylovVec ((2 : Nat) : Int) exSpd.coef
      (residFn ((2 : Nat) : Int) exSpd.coef [4, 5] [1, 1])) 1 (fun _ => t)) := by
    apply exPcg_spd.a_pos
    intro hz
    have := hz 0 (by decide) (by decide)
    rw [Pi.sub_apply, hc 0 (by decide) (by decide), hx] at this
    apply ht
    have h2 : (9 / 7 : Rat) - (1 + t) = 0 := this
    linarith
  exact lt_add_of_pos_right _ pos

end Linalg
