import Mathlib.Analysis.Real.Sqrt
import Verif.Model.Dispatch
import Verif.Props.ParVec
import Verif.Props.Vector

/-!
# Distributed vectors seen through `VectorView` (C134)

A `ParVector` overrides the virtual functions `Mult` and `L2Norm` of `VectorView` with sums over all processes.  What a function that takes
a `VectorView` returns for a `ParVector` then depends on whether it calls one of them, on which argument, and on whether it takes the vector
by value.
-/

namespace Linalg
open Cpp

variable {R : Type}

/-- The sum of products over the elements of one process. -/
noncomputable def Seen.localProd [NonUnitalNonAssocSemiring R] (x y : List R) : R :=
  ∑ i ∈ Finset.Ico (0 : Int) x.length, vecAt x i * vecAt y i

/-- The sum of products over the elements of all processes. -/
noncomputable def Seen.globalProd [NonUnitalNonAssocSemiring R] (xs ys : List (List R)) : R :=
  ∑ g ∈ Finset.Ico (0 : Int) xs.flatten.length, Par.globalVec xs g * Par.globalVec ys g

/-- Two vectors are stored by the same number of processes, and on each process they have the same size. -/
def Seen.Fits (xs ys : List (List R)) : Prop :=
  xs.length = ys.length ∧ ∀ (p : Nat) (h : p < xs.length) (h' : p < ys.length), xs[p].length = ys[p].length

namespace Seen

theorem Fits.refl (xs : List (List R)) : Fits xs xs := ⟨rfl, fun _ _ _ => rfl⟩

theorem Fits.symm {xs ys : List (List R)} (h : Fits xs ys) : Fits ys xs :=
  ⟨h.1.symm, fun p hp hp' => (h.2 p hp' hp).symm⟩

theorem locals_ok [NonUnitalNonAssocSemiring R] {xs ys : List (List R)} (h : Fits xs ys) :
    (xs.zip ys).mapM (fun p => Vec.inner p.1 p.2) = .ok (List.zipWith localProd xs ys) := by
  rw [mapM_ok (xs.zip ys) _ (fun p => localProd p.1 p.2)]
  · congr 1
    rw [List.zip, List.map_zipWith]
  · intro p hp
    obtain ⟨k, hk, rfl⟩ := List.getElem_of_mem hp
    rw [List.getElem_zip]
    rw [List.length_zip] at hk
    exact (C30_sum_inner _ _).2.1 (h.2 k (by omega) (by omega))

theorem sum_locals [NonUnitalNonAssocSemiring R] {xs ys : List (List R)} (h : Fits xs ys) :
    mpiAllreduceSum (List.zipWith localProd xs ys) = List.replicate xs.length (globalProd xs ys) := by
  have e := C86_inner xs ys h.1 (fun p hp => h.2 p hp (by have := h.1; omega))
  unfold Par.inner at e
  rw [locals_ok h, ok_bind] at e
  injection e

theorem replicate_sum [NonUnitalNonAssocSemiring R] (n : Nat) (a : R) :
    mpiAllreduceSum (List.replicate n a) = List.replicate n (n • a) := by
  rw [Par.mpiAllreduceSum_eq, List.length_replicate, List.sum_replicate]

end Seen

/-! ## Which sum is returned -/

/-- **C134.**  `InnerProduct(lhs, rhs)`, `lhs * rhs` and `lhs.Mult(rhs)`: the left argument decides.  For a `ParVector` on the left every
process gets the inner product of the whole vectors; otherwise each process gets that of its own elements, whatever is on the right. -/
theorem C134_innerProduct [NonUnitalNonAssocSemiring R] (x y : Seen R) (h : Seen.Fits x.shares y.shares) :
    (x.par = true → x.innerProduct y = .ok (List.replicate x.shares.length (Seen.globalProd x.shares y.shares))) ∧
    (x.par = false → ∃ s, x.innerProduct y = .ok s ∧ s.length = x.shares.length ∧
      ∀ (p : Nat) (hp : p < s.length) (hx : p < x.shares.length) (hy : p < y.shares.length),
        s[p] = Seen.localProd x.shares[p] y.shares[p]) := by
  unfold Seen.innerProduct Seen.mult
  rw [Seen.locals_ok h, ok_bind]
  constructor
  · intro hp
    rw [if_pos hp, Seen.sum_locals h]
  · intro hp
    rw [if_neg (by simp [hp])]
    refine ⟨_, rfl, ?_, ?_⟩
    · rw [List.length_zipWith, ← h.1, Nat.min_self]
    · intro p _ hx hy
      rw [List.getElem_zipWith]

/-- **C134.**  `ParMult(comm, lhs, rhs)` is the inner product of the whole vectors on every process when `lhs` is not a `ParVector`.  When
it is, the sum over the processes is taken twice and the result is too large by a factor of the number of processes. -/
theorem C134_parMult [NonUnitalNonAssocSemiring R] (x y : Seen R) (h : Seen.Fits x.shares y.shares) :
    (x.par = false → x.parMult y = .ok (List.replicate x.shares.length (Seen.globalProd x.shares y.shares))) ∧
    (x.par = true →
      x.parMult y = .ok (List.replicate x.shares.length (x.shares.length • Seen.globalProd x.shares y.shares))) := by
  unfold Seen.parMult Seen.mult
  rw [Seen.locals_ok h, ok_bind, ok_bind]
  constructor
  · intro hp
    rw [if_neg (by simp [hp]), Seen.sum_locals h]
  · intro hp
    rw [if_pos hp, Seen.sum_locals h, Seen.replicate_sum]

/-- **C134.**  `L2Norm(vect)` is the norm of the whole vector on every process for a `ParVector`, and of the elements of each process
otherwise. -/
theorem C134_l2Norm [NonUnitalNonAssocSemiring R] (sqrt : R → R) (x : Seen R) :
    (x.par = true → x.l2Norm sqrt = .ok (List.replicate x.shares.length (sqrt (Seen.globalProd x.shares x.shares)))) ∧
    (x.par = false → ∃ s, x.l2Norm sqrt = .ok s ∧ s.length = x.shares.length ∧
      ∀ (p : Nat) (hp : p < s.length) (hx : p < x.shares.length), s[p] = sqrt (Seen.localProd x.shares[p] x.shares[p])) := by
  have hi := C134_innerProduct x x (Seen.Fits.refl _)
  unfold Seen.innerProduct at hi
  unfold Seen.l2Norm
  constructor
  · intro hp
    rw [hi.1 hp, ok_bind, List.map_replicate]
  · intro hp
    obtain ⟨s, e, hl, hs⟩ := hi.2 hp
    rw [e, ok_bind]
    refine ⟨_, rfl, by rw [List.length_map, hl], ?_⟩
    intro p hp' hx
    rw [List.getElem_map, hs p (by simpa using hp') hx hx]

/-- **C134.**  `ParL2Norm(comm, vect)` is the norm of the whole vector on every process when `vect` is not a `ParVector`; for a `ParVector`
the number under the root is too large by a factor of the number of processes. -/
theorem C134_parL2Norm [NonUnitalNonAssocSemiring R] (sqrt : R → R) (x : Seen R) :
    (x.par = false → x.parL2Norm sqrt = .ok (List.replicate x.shares.length (sqrt (Seen.globalProd x.shares x.shares)))) ∧
    (x.par = true → x.parL2Norm sqrt
      = .ok (List.replicate x.shares.length (sqrt (x.shares.length • Seen.globalProd x.shares x.shares)))) := by
  have hm := C134_parMult x x (Seen.Fits.refl _)
  have e : x.parL2Norm sqrt = (x.parMult x >>= fun s => .ok (s.map sqrt)) := by
    unfold Seen.parL2Norm Seen.parMult
    cases x.mult x <;> rfl
  rw [e]
  constructor
  · intro hp
    rw [hm.1 hp, ok_bind, List.map_replicate]
  · intro hp
    rw [hm.2 hp, ok_bind, List.map_replicate]

/-- **C134.**  Over the real numbers: for a `ParVector` that is not zero, on more than one process, `ParL2Norm` is strictly larger than the
norm: it is the norm times the root of the number of processes. -/
theorem C134_parL2Norm_wrong (x : Seen ℝ) (hp : x.par = true) (hn : 2 ≤ x.shares.length)
    (hne : 0 < Seen.globalProd x.shares x.shares) :
    ∃ v, x.parL2Norm Real.sqrt = .ok (List.replicate x.shares.length v) ∧
      v = Real.sqrt x.shares.length * Real.sqrt (Seen.globalProd x.shares x.shares) ∧
      Real.sqrt (Seen.globalProd x.shares x.shares) < v := by
  refine ⟨_, (C134_parL2Norm Real.sqrt x).2 hp, ?_, ?_⟩
  · rw [nsmul_eq_mul, Real.sqrt_mul (Nat.cast_nonneg _)]
  · apply Real.sqrt_lt_sqrt (le_of_lt hne)
    rw [nsmul_eq_mul]
    have : (2 : ℝ) ≤ (x.shares.length : ℝ) := by exact_mod_cast hn
    nlinarith

/-- **C134.**  On one process the type makes no difference: all of them are the inner product and the norm. -/
theorem C134_one [NonUnitalNonAssocSemiring R] (sqrt : R → R) (b c : Bool) (x y : List R) (h : x.length = y.length) :
    Seen.innerProduct ⟨b, [x]⟩ ⟨c, [y]⟩ = .ok [Seen.localProd x y] ∧ Seen.parMult ⟨b, [x]⟩ ⟨c, [y]⟩ = .ok [Seen.localProd x y] ∧
    Seen.l2Norm sqrt ⟨b, [x]⟩ = .ok [sqrt (Seen.localProd x x)] ∧ Seen.parL2Norm sqrt ⟨b, [x]⟩ = .ok [sqrt (Seen.localProd x x)] := by
  have e1 : ∀ (b : Bool) (z : List R), x.length = z.length → Seen.mult ⟨b, [x]⟩ (⟨c, [z]⟩ : Seen R) = .ok [Seen.localProd x z] := by
    intro b z hz
    unfold Seen.mult
    rw [Seen.locals_ok (show Seen.Fits [x] [z] from ⟨rfl, fun p hp _ => by
      simp only [List.length_singleton] at hp
      obtain rfl : p = 0 := by omega
      exact hz⟩), ok_bind]
    cases b <;> simp [Par.mpiAllreduceSum_eq]
  have e2 : Seen.mult ⟨b, [x]⟩ (⟨b, [x]⟩ : Seen R) = .ok [Seen.localProd x x] := by
    have := e1 b x rfl
    unfold Seen.mult at this ⊢
    exact this
  refine ⟨e1 b y h, ?_, ?_, ?_⟩
  · unfold Seen.parMult
    rw [e1 b y h, ok_bind, Par.mpiAllreduceSum_eq]
    simp
  · unfold Seen.l2Norm
    rw [e2]
    rfl
  · unfold Seen.parL2Norm
    rw [e2, ok_bind, Par.mpiAllreduceSum_eq]
    simp

/-- **C134.**  Two vectors of the same type can be exchanged in `InnerProduct`; a `ParVector` and another vector only where the elements of
the process already give the whole sum. -/
theorem C134_symm [NonUnitalNonAssocCommSemiring R] (x y : Seen R) (h : Seen.Fits x.shares y.shares) :
    (x.par = y.par → x.innerProduct y = y.innerProduct x) ∧
    (x.par = true → y.par = false → (x.innerProduct y = y.innerProduct x ↔
      ∀ (p : Nat) (hx : p < x.shares.length) (hy : p < y.shares.length),
        Seen.localProd x.shares[p] y.shares[p] = Seen.globalProd x.shares y.shares)) := by
  have hz : List.zipWith Seen.localProd y.shares x.shares = List.zipWith Seen.localProd x.shares y.shares := by
    refine List.ext_getElem (by simp [Nat.min_comm]) (fun p h1 h2 => ?_)
    rw [List.getElem_zipWith, List.getElem_zipWith]
    have h3 : p < x.shares.length := by rw [List.length_zipWith] at h1; omega
    have h4 : p < y.shares.length := by rw [List.length_zipWith] at h1; omega
    unfold Seen.localProd
    rw [h.2 p h3 h4]
    exact Finset.sum_congr rfl (fun i _ => mul_comm _ _)
  unfold Seen.innerProduct Seen.mult
  rw [Seen.locals_ok h, Seen.locals_ok h.symm, ok_bind, ok_bind, hz]
  constructor
  · intro e
    rw [e]
  · intro hx hy
    rw [if_pos hx, if_neg (by simp [hy]), Seen.sum_locals h]
    constructor
    · intro e p h1 h2
      injection e with e
      have hl : p < (List.zipWith Seen.localProd x.shares y.shares).length := by
        rw [List.length_zipWith]
        omega
      have := List.getElem_zipWith (f := Seen.localProd) (l := x.shares) (l' := y.shares) (i := p) (h := hl)
      rw [← this]
      simp only [← e]
      rw [List.getElem_replicate]
    · intro e
      congr 1
      refine List.ext_getElem (by rw [List.length_replicate, List.length_zipWith, ← h.1, Nat.min_self]) (fun p h1 h2 => ?_)
      rw [List.getElem_replicate, List.getElem_zipWith, e]

/-- **C134.**  `A.InnerProduct(x, y)`: the second vector decides.  For a `ParVector` `y` every process gets yᵀAx for the whole vectors;
otherwise each process gets the part of that sum that its own rows contribute.  The type of `x` has no influence. -/
theorem C134_operator [NonUnitalNonAssocSemiring R] (apply : List (List R) → Res (List (List R))) (x y : Seen R) (ax : List (List R))
    (ha : apply x.shares = .ok ax) (h : Seen.Fits y.shares ax) :
    (y.par = true → Seen.opInnerProduct apply x y = .ok (List.replicate y.shares.length (Seen.globalProd y.shares ax))) ∧
    (y.par = false → ∃ s, Seen.opInnerProduct apply x y = .ok s ∧ s.length = y.shares.length ∧
      (∀ (p : Nat) (hp : p < s.length) (hy : p < y.shares.length) (hx : p < ax.length), s[p] = Seen.localProd y.shares[p] ax[p]) ∧
      s.sum = Seen.globalProd y.shares ax) := by
  have hi := C134_innerProduct y ⟨false, ax⟩ h
  unfold Seen.innerProduct at hi
  unfold Seen.opInnerProduct
  rw [ha, ok_bind]
  refine ⟨hi.1, fun hp => ?_⟩
  obtain ⟨s, e, hl, hs⟩ := hi.2 hp
  refine ⟨s, e, hl, hs, ?_⟩
  have hz : s = List.zipWith Seen.localProd y.shares ax := by
    unfold Seen.mult at e
    rw [Seen.locals_ok h, ok_bind, if_neg (by simp [hp])] at e
    injection e with e
    exact e.symm
  rcases Nat.eq_zero_or_pos y.shares.length with h0 | h0
  · have hy : y.shares = [] := List.length_eq_zero_iff.mp h0
    rw [hz, hy]
    simp [Seen.globalProd]
  · have e := Seen.sum_locals h
    rw [Par.mpiAllreduceSum_eq, ← hz, hl] at e
    have := congrArg (fun l => l[0]?) e
    simpa [h0] using this

/-- **C134.**  What the other properties use as the distributed inner product and norm is `ParMult` and `ParL2Norm` of vectors that are not
`ParVector`s, and `Mult` and `L2Norm` of those that are. -/
theorem C134_same [Zero R] [Add R] [Mul R] (sqrt : R → R) (b : Bool) (xs ys : List (List R)) :
    Par.inner xs ys = Seen.parMult ⟨false, xs⟩ ⟨b, ys⟩ ∧ Par.inner xs ys = Seen.mult ⟨true, xs⟩ ⟨b, ys⟩ ∧
    Par.l2Norm sqrt xs = Seen.parL2Norm sqrt ⟨false, xs⟩ ∧ Par.l2Norm sqrt xs = Seen.l2Norm sqrt ⟨true, xs⟩ := by
  refine ⟨?_, rfl, ?_, rfl⟩
  · unfold Par.inner Seen.parMult Seen.mult
    cases (xs.zip ys).mapM (fun p => Vec.inner p.1 p.2) <;> rfl
  · unfold Par.l2Norm Par.inner Seen.parL2Norm Seen.mult
    simp only
    cases (xs.zip xs).mapM (fun p => Vec.inner p.1 p.2) <;> rfl

/-! ## By value: each process on its own -/

theorem Seen.whole_inMem (s : List R) : (View.mk 0 s.length).InMem s := ⟨by simp, by simp, by simp⟩

theorem Seen.mapM_each {β γ : Type} (l : List β) (f : β → Res γ) (P : β → γ → Prop) (h : ∀ b ∈ l, ∃ c, f b = .ok c ∧ P b c) :
    ∃ r, l.mapM f = .ok r ∧ r.length = l.length ∧ ∀ (p : Nat) (h1 : p < l.length) (h2 : p < r.length), P l[p] r[p] := by
  induction l with
  | nil => exact ⟨[], rfl, rfl, fun p h1 => absurd h1 (by simp)⟩
  | cons b l ih =>
    obtain ⟨c, hc, pc⟩ := h b (by simp)
    obtain ⟨r, hr, hl, hp⟩ := ih (fun x hx => h x (by simp [hx]))
    refine ⟨c :: r, ?_, by simp [hl], ?_⟩
    · rw [List.mapM_cons, hc, ok_bind, hr]
      rfl
    · intro p h1 h2
      cases p with
      | zero => exact pc
      | succ p => exact hp p (by simpa using h1) (by simpa using h2)

theorem Seen.mapM_fails {β γ : Type} (l : List β) (f : β → Res γ) (e : Err) (b : β) (hb : b ∈ l) (he : f b = .error e)
    (h : ∀ c ∈ l, (∃ r, f c = .ok r) ∨ f c = .error e) : l.mapM f = .error e := by
  induction l with
  | nil => simp at hb
  | cons c l ih =>
    rw [List.mapM_cons]
    rcases h c (by simp) with ⟨r, hr⟩ | hr
    · have hb' : b ∈ l := by
        rcases List.mem_cons.mp hb with rfl | hb'
        · rw [he] at hr
          cases hr
        · exact hb'
      rw [hr, ok_bind, ih hb' (fun x hx => h x (by simp [hx]))]
      rfl
    · rw [hr]
      rfl

/-- **C134.**  `Normalize(vect)` and `vect.Normalize()` divide the elements of each process by the norm of those elements, for a `ParVector`
too.  Afterwards the squares of each process sum to one, so those of the whole vector sum to the number of processes. -/
theorem C134_normalize [Field R] [DecidableEq R] (sqrt : R → R) (x : Seen R)
    (hr : ∀ s ∈ x.shares, sqrt (Seen.localProd s s) * sqrt (Seen.localProd s s) = Seen.localProd s s)
    (hne : ∀ s ∈ x.shares, Seen.localProd s s ≠ 0) :
    ∃ y, x.normalize sqrt = .ok y ∧ y.par = x.par ∧ y.shares.length = x.shares.length ∧
      (∀ (p : Nat) (hx : p < x.shares.length) (hy : p < y.shares.length), y.shares[p].length = x.shares[p].length ∧
        Seen.localProd y.shares[p] y.shares[p] = 1 ∧
        ∀ i : Int, 0 ≤ i → i < x.shares[p].length →
          vecAt y.shares[p] i * sqrt (Seen.localProd x.shares[p] x.shares[p]) = vecAt x.shares[p] i) ∧
      Seen.globalProd y.shares y.shares = (x.shares.length : R) := by
  obtain ⟨r, e, hl, hp⟩ := Seen.mapM_each x.shares (fun s => (View.mk 0 s.length).normalize sqrt s)
    (fun s t => t.length = s.length ∧ Seen.localProd t t = 1 ∧
      ∀ i : Int, 0 ≤ i → i < s.length → vecAt t i * sqrt (Seen.localProd s s) = vecAt s i) (by
    intro s hs
    obtain ⟨t, e, h1, h2, h3, -⟩ := C31_normalize sqrt ⟨0, s.length⟩ s (Seen.whole_inMem s) (Seen.localProd s s)
      (by simp only [zero_add]; rfl) (hr s hs) (hne s hs)
    simp only [zero_add] at h2 h3
    refine ⟨t, e, h1, ?_, h3⟩
    unfold Seen.localProd
    rw [h1]
    exact h2)
  refine ⟨⟨x.par, r⟩, ?_, rfl, hl, fun p hx hy => hp p hx hy, ?_⟩
  · unfold Seen.normalize
    rw [e, ok_bind]
  · have es := Seen.sum_locals (Seen.Fits.refl r)
    have hz : List.zipWith Seen.localProd r r = List.replicate r.length 1 := by
      refine List.ext_getElem (by simp) (fun p h1 h2 => ?_)
      rw [List.getElem_zipWith, List.getElem_replicate]
      have h3 : p < r.length := by simpa using h2
      exact (hp p (by omega) h3).2.1
    rw [hz, Seen.replicate_sum] at es
    rcases Nat.eq_zero_or_pos r.length with h0 | h0
    · have hr0 : r = [] := List.length_eq_zero_iff.mp h0
      rw [← hl, hr0]
      simp [Seen.globalProd]
    · have := congrArg (fun l => l[0]?) es
      simp only [List.getElem?_replicate, if_pos h0, Option.some.injEq, nsmul_eq_mul, mul_one] at this
      rw [← hl]
      exact this.symm

/-- **C134.**  A `ParVector` one of whose processes stores only zeros, or nothing, is rejected by `Normalize`, however large the elements of
the other processes are. -/
theorem C134_normalize_rejects [Field R] [LinearOrder R] [IsStrictOrderedRing R] (sqrt : R → R)
    (hsq : ∀ a, 0 ≤ a → sqrt a * sqrt a = a) (x : Seen R) (s : List R) (hs : s ∈ x.shares) (hz : ∀ a ∈ s, a = 0) :
    x.normalize sqrt = .error .assertFail := by
  have h0 : sqrt 0 = 0 := by
    have := hsq 0 le_rfl
    simpa using this
  have hzero : ∀ t : List R, Seen.localProd t t = 0 → ∀ i : Int, 0 ≤ i → i < t.length → vecAt t i = 0 := by
    intro t ht i i0 i1
    have := (Finset.sum_eq_zero_iff_of_nonneg (fun i _ => mul_self_nonneg (vecAt t i))).mp ht i (Finset.mem_Ico.mpr ⟨i0, i1⟩)
    exact mul_self_eq_zero.mp this
  have hrej : ∀ t : List R, (∀ i : Int, 0 ≤ i → i < t.length → vecAt t i = 0) →
      (View.mk 0 t.length).normalize sqrt t = .error .assertFail := by
    intro t ht
    refine (C31_rejects sqrt ⟨0, t.length⟩ t (Seen.whole_inMem t)).1 h0 ?_
    intro i i0 i1
    rw [zero_add]
    exact ht i i0 i1
  unfold Seen.normalize
  rw [Seen.mapM_fails x.shares _ .assertFail s hs]
  · rfl
  · apply hrej
    intro i i0 i1
    obtain ⟨k, rfl⟩ := Int.eq_ofNat_of_zero_le i0
    have hk : k < s.length := by omega
    rw [vecAt_nat _ _ hk]
    exact hz _ (List.getElem_mem hk)
  · intro t ht
    by_cases hn : Seen.localProd t t = 0
    · exact Or.inr (hrej t (hzero t hn))
    · left
      obtain ⟨m, e, -⟩ := C31_normalize sqrt ⟨0, t.length⟩ t (Seen.whole_inMem t) (Seen.localProd t t)
        (by simp only [zero_add]; rfl) (hsq _ (Finset.sum_nonneg (fun i _ => mul_self_nonneg _))) hn
      exact ⟨m, e⟩

/-- **C134.**  `Sum` and `Mean` of a `ParVector` are those of the elements of each process; the sums add up to what `GlobalSum` returns. -/
theorem C134_mean [Field R] (x : Seen R) :
    x.sum.length = x.shares.length ∧
    (∀ (p : Nat) (hp : p < x.sum.length) (hx : p < x.shares.length),
      x.sum[p] = ∑ i ∈ Finset.Ico (0 : Int) x.shares[p].length, vecAt x.shares[p] i) ∧
    (∀ vs : List (ParVec R), vs.map ParVec.data = x.shares → Par.globalSum vs = List.replicate vs.length x.sum.sum) ∧
    ((∀ s ∈ x.shares, s ≠ []) → ∃ m, x.mean = .ok m ∧ m.length = x.shares.length ∧
      ∀ (p : Nat) (hp : p < m.length) (hx : p < x.shares.length),
        m[p] = (∑ i ∈ Finset.Ico (0 : Int) x.shares[p].length, vecAt x.shares[p] i) / (x.shares[p].length : R)) ∧
    ([] ∈ x.shares → x.mean = .error .divZero) := by
  refine ⟨by simp [Seen.sum], ?_, ?_, ?_, ?_⟩
  · intro p hp hx
    simp only [Seen.sum, List.getElem_map]
    rw [Vec.sum_eq]
  · intro vs hv
    unfold Par.globalSum Seen.sum
    rw [Par.mpiAllreduceSum_eq, List.length_map, ← hv, List.map_map]
    rfl
  · intro hne
    obtain ⟨m, e, hl, hp⟩ := Seen.mapM_each x.shares Vec.mean
      (fun s c => c = (∑ i ∈ Finset.Ico (0 : Int) s.length, vecAt s i) / (s.length : R)) (by
      intro s hs
      unfold Vec.mean
      rw [if_neg (by simpa using hne s hs)]
      exact ⟨_, rfl, by rw [Vec.sum_eq]⟩)
    exact ⟨m, e, hl, fun p h1 h2 => hp p h2 h1⟩
  · intro hm
    refine Seen.mapM_fails x.shares Vec.mean .divZero [] hm rfl ?_
    intro c _
    unfold Vec.mean
    split
    · exact Or.inr rfl
    · exact Or.inl ⟨_, rfl⟩

/-- **C134.**  `SubAvg` of a `ParVector` behind a `VectorView<double>&` takes away the mean of each process: afterwards the elements of every
process sum to zero, and differences between elements of one process are unchanged. -/
theorem C134_subAvg [Field R] [CharZero R] (x : Seen R) (hne : ∀ s ∈ x.shares, s ≠ []) :
    ∃ y, x.subAvg = .ok y ∧ y.par = x.par ∧ y.shares.length = x.shares.length ∧
      ∀ (p : Nat) (hx : p < x.shares.length) (hy : p < y.shares.length), y.shares[p].length = x.shares[p].length ∧
        (∑ i ∈ Finset.Ico (0 : Int) y.shares[p].length, vecAt y.shares[p] i) = 0 ∧
        ∀ i j : Int, 0 ≤ i → i < x.shares[p].length → 0 ≤ j → j < x.shares[p].length →
          vecAt y.shares[p] i - vecAt y.shares[p] j = vecAt x.shares[p] i - vecAt x.shares[p] j := by
  obtain ⟨r, e, hl, hp⟩ := Seen.mapM_each x.shares (fun s => (View.mk 0 s.length).subAvg s)
    (fun s t => t.length = s.length ∧ (∑ i ∈ Finset.Ico (0 : Int) t.length, vecAt t i) = 0 ∧
      ∀ i j : Int, 0 ≤ i → i < s.length → 0 ≤ j → j < s.length → vecAt t i - vecAt t j = vecAt s i - vecAt s j) (by
    intro s hs
    have h0 : 0 < s.length := List.length_pos_iff.mpr (hne s hs)
    obtain ⟨t, e, h1, h2, h3, -⟩ := C31_subAvg ⟨0, s.length⟩ s (Seen.whole_inMem s) (by simpa using h0)
    simp only [zero_add] at h2 h3
    exact ⟨t, e, h1, by rw [h1]; exact h2, h3⟩)
  refine ⟨⟨x.par, r⟩, ?_, rfl, hl, fun p hx hy => hp p hx hy⟩
  unfold Seen.subAvg
  rw [e, ok_bind]

/-! ## Concrete cases -/

/-- C134: three processes, the last of which stores nothing. -/
example : Seen.Fits [[1, 2], [3], []] [[(4 : Int), 5], [6], []] ∧
    Seen.innerProduct ⟨true, [[1, 2], [3], []]⟩ ⟨false, [[(4 : Int), 5], [6], []]⟩ = .ok [32, 32, 32] ∧
    Seen.innerProduct ⟨false, [[(4 : Int), 5], [6], []]⟩ ⟨true, [[1, 2], [3], []]⟩ = .ok [14, 18, 0] ∧
    Seen.parMult ⟨false, [[1, 2], [3], []]⟩ ⟨true, [[(4 : Int), 5], [6], []]⟩ = .ok [32, 32, 32] ∧
    Seen.parMult ⟨true, [[1, 2], [3], []]⟩ ⟨true, [[(4 : Int), 5], [6], []]⟩ = .ok [96, 96, 96] := by
  refine ⟨⟨rfl, ?_⟩, by decide, by decide, by decide, by decide⟩
  intro p h h'
  have : p = 0 ∨ p = 1 ∨ p = 2 := by simp at h; omega
  rcases this with rfl | rfl | rfl <;> rfl

/-- C134: a `ParVector` of norm 2 on four processes has `ParL2Norm` 4. -/
example : (∀ s : Int, s = 4 ∨ s = 16 → (fun a : Int => if a = 16 then 4 else if a = 4 then 2 else 0) s
      * (fun a : Int => if a = 16 then 4 else if a = 4 then 2 else 0) s = s) ∧
    Seen.l2Norm (fun a : Int => if a = 16 then 4 else if a = 4 then 2 else 0) ⟨true, [[1], [1], [1], [1]]⟩ = .ok [2, 2, 2, 2] ∧
    Seen.parL2Norm (fun a : Int => if a = 16 then 4 else if a = 4 then 2 else 0) ⟨false, [[1], [1], [1], [1]]⟩ = .ok [2, 2, 2, 2] ∧
    Seen.parL2Norm (fun a : Int => if a = 16 then 4 else if a = 4 then 2 else 0) ⟨true, [[1], [1], [1], [1]]⟩ = .ok [4, 4, 4, 4] := by
  refine ⟨?_, by decide, by decide, by decide⟩
  rintro s (rfl | rfl) <;> decide

/-- C134: the hypotheses of `C134_parL2Norm_wrong` hold for this vector on two processes. -/
example : 2 ≤ [[(3 : ℝ)], [4]].length ∧ 0 < Seen.globalProd [[(3 : ℝ)], [4]] [[(3 : ℝ)], [4]] := by
  refine ⟨by simp, ?_⟩
  unfold Seen.globalProd
  rw [show Finset.Ico (0 : Int) ([[(3 : ℝ)], [4]].flatten.length) = {0, 1} from rfl]
  simp [Par.globalVec, vecAt]
  norm_num

/-- C134: `A.InnerProduct(x, y)` for the matrix that doubles, with `y` of either type. -/
example : Seen.opInnerProduct (fun v => .ok (v.map (·.map (2 * ·)))) ⟨true, [[1], [(3 : Int)]]⟩ ⟨true, [[5], [7]]⟩ = .ok [52, 52] ∧
    Seen.opInnerProduct (fun v => .ok (v.map (·.map (2 * ·)))) ⟨true, [[1], [(3 : Int)]]⟩ ⟨false, [[5], [7]]⟩ = .ok [10, 42] := by
  decide

/-- C134: `Normalize` of the `ParVector` (3, 4 | 5) on two processes gives (3/5, 4/5 | 1), whose squares sum to 2. -/
example : (∀ s ∈ [[(3 : ℚ), 4], [5]], (5 : ℚ) * 5 = Seen.localProd s s ∧ Seen.localProd s s ≠ 0) ∧
    Seen.normalize (fun _ => 5) ⟨true, [[(3 : ℚ), 4], [5]]⟩ = .ok ⟨true, [[3 / 5, 4 / 5], [1]]⟩ := by
  refine ⟨?_, by decide +kernel⟩
  intro s hs
  have h1 : Seen.localProd [(3 : ℚ), 4] [3, 4] = 25 := by decide +kernel
  have h2 : Seen.localProd [(5 : ℚ)] [5] = 25 := by decide +kernel
  simp only [List.mem_cons, List.not_mem_nil, or_false] at hs
  rcases hs with rfl | rfl
  · rw [h1]; norm_num
  · rw [h2]; norm_num

/-- C134: the second process stores a zero, and the whole vector has norm 5. -/
example : (∀ a : ℝ, 0 ≤ a → Real.sqrt a * Real.sqrt a = a) ∧ (∀ a ∈ [(0 : ℝ)], a = 0) ∧ [(0 : ℝ)] ∈ [[3, 4], [(0 : ℝ)]] :=
  ⟨fun a ha => Real.mul_self_sqrt ha, by simp, by simp⟩

/-- C134: means of (1, 3 | 8): 2 and 8 by process; `SubAvg` of the `ParVector` takes away 4 everywhere, through a view 2 and 8. -/
example : Seen.mean ⟨true, [[1, 3], [(8 : ℚ)]]⟩ = .ok [2, 8] ∧
    Seen.subAvg ⟨true, [[1, 3], [(8 : ℚ)]]⟩ = .ok ⟨true, [[-1, 1], [0]]⟩ ∧
    Par.subAvg [⟨[1, 3], [0, 2, 3], 3⟩, ⟨[(8 : ℚ)], [2, 3, 3], 3⟩] = .ok [⟨[-3, -1], [0, 2, 3], 3⟩, ⟨[4], [2, 3, 3], 3⟩] := by
  decide +kernel

end Linalg
