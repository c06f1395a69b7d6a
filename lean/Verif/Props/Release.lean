import Verif.Proof.Release

/-!
# Builds without assertions (C137)
-/

namespace Linalg
open Cpp

variable {R : Type}

/-- **C137.**  With assertions on, the functions with a build parameter are those of the other models. -/
theorem C137_debug [NonUnitalNonAssocRing R] (x y : View) (a : R) (m u v : List R) (A : Csr R) (C : Coo R) (i j : Int)
    (p ix : List Int) :
    Rel.assign .debug x y m = x.assign y m ∧
    Rel.addScaled .debug x a y m = x.addScaled a y m ∧
    Rel.subScaled .debug x a y m = x.subScaled a y m ∧
    Rel.setScaled .debug x a y m = x.setScaled a y m ∧
    Rel.addAssign .debug x y m = x.addAssign y m ∧
    Rel.subAssign .debug x y m = x.subAssign y m ∧
    Rel.mulAssign .debug x y m = x.mulAssign y m ∧
    Rel.inner .debug u v = Vec.inner u v ∧
    Rel.ofArrays .debug p ix u i j = Csr.ofArrays p ix u i j ∧
    Rel.rowSize .debug A i = A.rowSize i ∧
    Rel.mult .debug A u v = A.mult u v ∧
    Rel.multAT .debug A u v = A.multAT u v ∧
    Rel.cooAdd .debug C i j a = C.add i j a ∧
    Rel.toSparse .debug C = C.toSparse ∧
    Rel.cooMult .debug C u v = C.mult u v ∧
    Rel.cooMultAT .debug C u v = C.multAT u v := by
  have hof : ∀ (p ix : List Int) (u : List R) i j, Rel.ofArrays .debug p ix u i j = Csr.ofArrays p ix u i j := by
    intro p ix u i j
    unfold Rel.ofArrays Csr.ofArrays Build.firstPtr
    cases rd p 0 <;> rfl
  refine ⟨rfl, rfl, rfl, rfl, rfl, rfl, rfl, ?_, hof p ix u i j, rfl, rfl, rfl, rfl, ?_, rfl, rfl⟩
  · unfold Rel.inner Vec.inner
    by_cases h : v.length = u.length
    · have e : Build.debug.assert (v.length = u.length) = .ok () := cassert_true h
      rw [e, cassert_true h, ok_bind, ok_bind, forUp_zero_eq_foldlM]
      have e2 : (u.zip v) = (List.range u.length).map (fun k : Nat => (vecAt u (k : Int), vecAt v (k : Int))) := by
        apply List.ext_getElem
        · simp [h]
        · intro k h1 h2
          simp only [List.length_zip] at h1
          simp only [List.getElem_zip, List.getElem_map, List.getElem_range]
          rw [vecAt_nat u k (by omega), vecAt_nat v k (by omega)]
      rw [e2, List.foldl_map]
      exact (foldlM_eq_foldl (l := List.range u.length) (g := fun (s : R) (k : Nat) => s + vecAt u (k : Int) * vecAt v (k : Int))
        (fun _ => True) trivial (fun k hk s _ => ⟨by
        have hk' : k < u.length := by simpa using hk
        rw [rd_vecAt u (by omega) (by omega), rd_vecAt v (by omega) (by omega)]; rfl, trivial⟩)).1
    · have e : Build.debug.assert (v.length = u.length) = .error .assertFail := cassert_false h
      rw [e, cassert_false h]; rfl
  · unfold Rel.toSparse Coo.toSparse
    simp only [hof]
    rfl

/-- **C137.**  What a call returns when its assertions hold, it returns in a build without them. -/
theorem C137_same [NonUnitalNonAssocRing R] (x y : View) (a : R) (m u v : List R) (A : Csr R) (C : Coo R) (i j : Int)
    (p ix : List Int) :
    (∀ r, x.assign y m = .ok r → Rel.assign .release x y m = .ok r) ∧
    (∀ r, x.addScaled a y m = .ok r → Rel.addScaled .release x a y m = .ok r) ∧
    (∀ r, x.subScaled a y m = .ok r → Rel.subScaled .release x a y m = .ok r) ∧
    (∀ r, x.setScaled a y m = .ok r → Rel.setScaled .release x a y m = .ok r) ∧
    (∀ r, x.addAssign y m = .ok r → Rel.addAssign .release x y m = .ok r) ∧
    (∀ r, x.subAssign y m = .ok r → Rel.subAssign .release x y m = .ok r) ∧
    (∀ r, x.mulAssign y m = .ok r → Rel.mulAssign .release x y m = .ok r) ∧
    (∀ r, Vec.inner u v = .ok r → Rel.inner .release u v = .ok r) ∧
    (∀ r, Csr.ofArrays p ix u i j = .ok r → Rel.ofArrays .release p ix u i j = .ok r) ∧
    (∀ r, A.rowSize i = .ok r → Rel.rowSize .release A i = .ok r) ∧
    (∀ r, A.mult u v = .ok r → Rel.mult .release A u v = .ok r) ∧
    (∀ r, A.multAT u v = .ok r → Rel.multAT .release A u v = .ok r) ∧
    (∀ r, C.add i j a = .ok r → Rel.cooAdd .release C i j a = .ok r) ∧
    (∀ r, C.toSparse = .ok r → Rel.toSparse .release C = .ok r) ∧
    (∀ r, C.mult u v = .ok r → Rel.cooMult .release C u v = .ok r) ∧
    (∀ r, C.multAT u v = .ok r → Rel.cooMultAT .release C u v = .ok r) := by
  obtain ⟨d1, d2, d3, d4, d5, d6, d7, d8, d9, d10, d11, d12, d13, d14, d15, d16⟩ := C137_debug x y a m u v A C i j p ix
  rw [← d1, ← d2, ← d3, ← d4, ← d5, ← d6, ← d7, ← d8, ← d9, ← d10, ← d11, ← d12, ← d13, ← d14, ← d15, ← d16]
  refine ⟨?_, ?_, ?_, ?_, ?_, ?_, ?_, ?_, Refines.ofArrays p ix u i j, ?_, ?_, ?_, ?_, ?_, ?_, ?_⟩
  · exact (Refines.assert _).bind fun _ => Refines.refl _
  · exact (Refines.assert _).bind fun _ => Refines.forUp fun i m => (Refines.get y m i).bind fun _ => Refines.refl _
  · exact (Refines.assert _).bind fun _ => Refines.forUp fun i m => (Refines.get y m i).bind fun _ => Refines.refl _
  · exact (Refines.assert _).bind fun _ => Refines.forUp fun i m => (Refines.get y m i).bind fun _ => Refines.refl _
  · exact (Refines.assert _).bind fun _ => Refines.forUp fun i m => (Refines.get y m i).bind fun _ => (Refines.get x m i).bind fun _ => Refines.put x m i _
  · exact (Refines.assert _).bind fun _ => Refines.forUp fun i m => (Refines.get y m i).bind fun _ => (Refines.get x m i).bind fun _ => Refines.put x m i _
  · exact (Refines.assert _).bind fun _ => Refines.forUp fun i m => (Refines.get y m i).bind fun _ => (Refines.get x m i).bind fun _ => Refines.put x m i _
  · exact (Refines.assert _).bind fun _ => Refines.refl _
  · exact (Refines.assert _).bind fun _ => Refines.refl _
  · exact (Refines.assert _).bind fun _ => (Refines.assert _).bind fun _ => Refines.forUp fun i m =>
      (Refines.forRow fun j s => (Refines.refl _).bind fun _ => (Refines.refl _).bind fun _ => (Refines.vrd _ _).bind fun _ => Refines.refl _).bind
        fun _ => Refines.vwr _ _ _
  · exact (Refines.assert _).bind fun _ => (Refines.assert _).bind fun _ => Refines.forUp fun i m =>
      Refines.forRow fun j s => (Refines.refl _).bind fun _ => (Refines.refl _).bind fun _ => (Refines.vrd _ _).bind fun _ =>
        (Refines.vrd _ _).bind fun _ => Refines.vwr _ _ _
  · refine (Refines.assert _).bind fun _ => (Refines.assert _).bind fun _ => ?_
    split
    · exact (Refines.assert _).bind fun _ => (Refines.assert _).bind fun _ => Refines.refl _
    · exact Refines.refl _
  · show Refines (Rel.toSparse .debug C) (Rel.toSparse .release C)
    unfold Rel.toSparse
    dsimp only
    split
    · exact (Refines.assert _).bind fun _ => (Refines.assert _).bind fun _ => Refines.refl _
    · exact (Refines.refl _).bind fun _ => (Refines.refl _).bind fun _ => (Refines.refl _).bind fun _ => (Refines.refl _).bind fun _ =>
        (Refines.refl _).bind fun _ => (Refines.refl _).bind fun _ => (Refines.refl _).bind fun _ => (Refines.refl _).bind fun _ =>
        Refines.ofArrays _ _ _ _ _
  · exact (Refines.assert _).bind fun _ => (Refines.assert _).bind fun _ => Refines.foldlM fun s e =>
      (Refines.vrd _ _).bind fun _ => (Refines.vrd _ _).bind fun _ => Refines.vwr _ _ _
  · exact (Refines.assert _).bind fun _ => (Refines.assert _).bind fun _ => Refines.foldlM fun s e =>
      (Refines.vrd _ _).bind fun _ => (Refines.vrd _ _).bind fun _ => Refines.vwr _ _ _

/-- **C137.**  Without assertions the length of the right operand is ignored: the operations with two views do to memory
what they do in a debug build when the operand has as many elements as the left one, whatever lies behind it.  Assignment
ignores the length of the *left* one: it writes all elements of the right one. -/
theorem C137_views [NonUnitalNonAssocRing R] (x y : View) (a : R) (m : List R) :
    Rel.assign .release x y m = View.assign ⟨x.off, y.size⟩ y m ∧
    Rel.addScaled .release x a y m = x.addScaled a ⟨y.off, x.size⟩ m ∧
    Rel.subScaled .release x a y m = x.subScaled a ⟨y.off, x.size⟩ m ∧
    Rel.setScaled .release x a y m = x.setScaled a ⟨y.off, x.size⟩ m ∧
    Rel.addAssign .release x y m = x.addAssign ⟨y.off, x.size⟩ m ∧
    Rel.subAssign .release x y m = x.subAssign ⟨y.off, x.size⟩ m ∧
    Rel.mulAssign .release x y m = x.mulAssign ⟨y.off, x.size⟩ m := by
  have hg : ∀ (v : View) (m : List R) (i : Int), i < x.size → (View.mk v.off x.size).get m i = Rel.get .release v m i := by
    intro v m i hi
    unfold View.get
    rw [cassert_true hi]; rfl
  have hgx : ∀ (m : List R) (i : Int), i < x.size → x.get m i = Rel.get .release x m i := fun m i hi => hg x m i hi
  have hp : ∀ (m : List R) (i : Int) v, i < x.size → x.put m i v = Rel.put .release x m i v := by
    intro m i v hi
    unfold View.put
    rw [cassert_true hi]; rfl
  refine ⟨?_, ?_, ?_, ?_, ?_, ?_, ?_⟩
  · unfold View.assign
    rw [cassert_true rfl]; rfl
  · unfold View.addScaled
    rw [cassert_true rfl, ok_bind]
    exact forUp_congr _ (fun i m _ hi => by rw [hg y m i hi])
  · unfold View.subScaled
    rw [cassert_true rfl, ok_bind]
    exact forUp_congr _ (fun i m _ hi => by rw [hg y m i hi])
  · unfold View.setScaled
    rw [cassert_true rfl, ok_bind]
    exact forUp_congr _ (fun i m _ hi => by rw [hg y m i hi])
  · unfold View.addAssign
    rw [cassert_true rfl, ok_bind]
    exact forUp_congr _ (fun i m _ hi => by rw [hg y m i hi, hgx m i hi]; simp only [hp m i _ hi])
  · unfold View.subAssign
    rw [cassert_true rfl, ok_bind]
    exact forUp_congr _ (fun i m _ hi => by rw [hg y m i hi, hgx m i hi]; simp only [hp m i _ hi])
  · unfold View.mulAssign
    rw [cassert_true rfl, ok_bind]
    exact forUp_congr _ (fun i m _ hi => by rw [hg y m i hi, hgx m i hi]; simp only [hp m i _ hi])

/-- C137: the first block of a vector with blocks of 2 and 3 elements is assigned a vector of 3 elements.  A debug build stops; a
release build overwrites the second block. -/
example : (View.assign ⟨0, 2⟩ ⟨5, 3⟩ ([1, 2, 3, 4, 5, 10, 20, 30] : List Int)) = .error .assertFail ∧
    Rel.assign .release ⟨0, 2⟩ ⟨5, 3⟩ ([1, 2, 3, 4, 5, 10, 20, 30] : List Int) = .ok [10, 20, 30, 4, 5, 10, 20, 30] := by
  decide +kernel

/-- C137: adding a block of 2 elements to a vector of 3: the third summand is the first element of the next block. -/
example : (View.addAssign ⟨5, 3⟩ ⟨0, 2⟩ ([1, 2, 3, 4, 5, 10, 20, 30] : List Int)) = .error .assertFail ∧
    Rel.addAssign .release ⟨5, 3⟩ ⟨0, 2⟩ ([1, 2, 3, 4, 5, 10, 20, 30] : List Int) = .ok [1, 2, 3, 4, 5, 11, 22, 33] := by
  decide +kernel

/-- **C137.**  The inner product without assertions: a longer second vector is cut off, a shorter one is read past its end. -/
theorem C137_inner [NonUnitalNonAssocRing R] (u v : List R) :
    (u.length ≤ v.length → Rel.inner .release u v = Vec.inner u (v.take u.length)) ∧
    (v.length < u.length → Rel.inner .release u v = .error .outOfBounds) := by
  constructor
  · intro h
    have hl : (v.take u.length).length = u.length := by simp; omega
    rw [← (C137_debug ⟨0, 0⟩ ⟨0, 0⟩ (0 : R) [] u (v.take u.length) Csr.empty Coo.new 0 0 [] []).2.2.2.2.2.2.2.1]
    unfold Rel.inner
    have e : Build.debug.assert ((v.take u.length).length = u.length) = .ok () := cassert_true hl
    rw [e]
    show forUp _ _ _ _ = forUp _ _ _ _
    apply forUp_congr
    intro i s h0 hi
    have e1 : rd (v.take u.length) i = rd v i := by
      rw [rd_int h0 (by omega), rd_int h0 (by omega), List.getElem_take]
    rw [e1]
  · intro h
    refine forUp_fails (fun _ _ => True) (fun i => i < (v.length : Int)) .outOfBounds trivial ?_ ?_ ⟨v.length, by omega, by omega, by omega⟩
    · intro i s h0 hi _ hg
      exact ⟨_, by rw [rd_vecAt u h0 hi, rd_vecAt v h0 hg]; rfl, trivial⟩
    · intro i s h0 hi _ hg
      rw [rd_vecAt u h0 hi, ok_bind, rd_oob (by omega)]; rfl

/-- **C137.**  `Mult(x, y)` of a well-formed sparse matrix without assertions, for vectors of any lengths.  It works exactly if
`y` has at least as many elements as the matrix has rows and `x` has an element for every *stored* column; it then computes the
product and leaves the rest of `y` alone.  Otherwise it accesses memory outside the vectors. -/
theorem C137_mult [NonUnitalNonAssocSemiring R] (A : Csr R) (hA : A.WF) (x y : List R) :
    ((A.rows ≤ y.length ∧ ∀ c ∈ A.indices, c < (x.length : Int)) →
      ∃ y', Rel.mult .release A x y = .ok y' ∧ y'.length = y.length ∧
        (∀ i, 0 ≤ i → i < A.rows → rd y' i = .ok (A.mulVec x i)) ∧ ∀ i, A.rows ≤ i → rd y' i = rd y i) ∧
    (¬ (A.rows ≤ y.length ∧ ∀ c ∈ A.indices, c < (x.length : Int)) → Rel.mult .release A x y = .error .outOfBounds) := by
  obtain ⟨n, rs, hn, hrs, rfl⟩ := hA.exists_rows
  have hrows : (Csr.ofRows n rs).rows = (rs.length : Int) := rfl
  have hidx : (∀ c ∈ (Csr.ofRows n rs).indices, c < (x.length : Int)) ↔
      ∀ k (hk : k < rs.length), ∀ e ∈ rs[k], e.1 < (x.length : Int) := by
    constructor
    · intro h k hk e he
      exact h _ (mem_indices_ofRows.mpr ⟨_, List.getElem_mem hk, e, he, rfl⟩)
    · intro h c hc
      obtain ⟨r, hr, e, he, rfl⟩ := mem_indices_ofRows.mp hc
      obtain ⟨k, hk, rfl⟩ := List.getElem_of_mem hr
      exact h k hk e he
  rw [hidx, hrows]
  have hmul : ∀ k (hk : k < rs.length), (Csr.ofRows n rs).mulVec x (k : Int) = ∑ j ∈ Finset.Ico 0 n, rowCoef rs[k] j * vecAt x j := by
    intro k hk
    unfold Csr.mulVec
    apply Finset.sum_congr rfl
    intro j _
    rw [coef_ofRows n rs k hk]
  constructor
  · rintro ⟨hy, hx⟩
    obtain ⟨y', h1, h2, h3, h4⟩ := forUp_inv_nat (n := rs.length) (s := y)
      (f := fun i output => do
        let val ← (Csr.ofRows n rs).forRow i (0 : R) (fun j val => do
          let d ← rd (Csr.ofRows n rs).data j
          let c ← rd (Csr.ofRows n rs).indices j
          let a ← Rel.vrd .release x c
          .ok (val + d * a))
        Rel.vwr .release output i val)
      (fun i (o : List R) => o.length = y.length ∧ (∀ k < i, o[k]? = some ((Csr.ofRows n rs).mulVec x (k : Int))) ∧
        ∀ k, i ≤ k → o[k]? = y[k]?)
      ⟨rfl, fun k hk => by omega, fun _ _ => rfl⟩ (by
        rintro i o hi ⟨hl, hk, hr⟩
        refine ⟨o.set i ((Csr.ofRows n rs).mulVec x (i : Int)), ?_, by simp [hl], ?_, ?_⟩
        · rw [(row_release n rs i hi hrs x).1 (hx i hi), ok_bind, hmul i hi]
          exact wr_nat (by omega)
        · intro k hk'
          rw [List.getElem?_set]
          by_cases e : i = k
          · subst e; rw [if_pos rfl, if_pos (by omega)]
          · rw [if_neg e]; exact hk k (by omega)
        · intro k hk'
          rw [List.getElem?_set, if_neg (by omega)]
          exact hr k (by omega))
    refine ⟨y', h1, h2, ?_, ?_⟩
    · intro i h0 hi
      rw [rd_eq_ok]
      refine ⟨h0, ?_⟩
      rw [h3 i.toNat (by omega)]
      congr 2; omega
    · intro i hi
      unfold rd
      rw [h4 i.toNat (by omega)]
  · intro h
    refine forUp_fails (fun _ (o : List R) => o.length = y.length)
      (fun i => i < (y.length : Int) ∧ ∀ k (hk : k < rs.length), (k : Int) = i → ∀ e ∈ rs[k], e.1 < (x.length : Int)) .outOfBounds rfl ?_ ?_ ?_
    · intro i o h0 hi hl hg
      obtain ⟨k, rfl⟩ : ∃ k : Nat, i = k := ⟨i.toNat, by omega⟩
      have hk : k < rs.length := by rw [hrows] at hi; omega
      refine ⟨_, by rw [(row_release n rs k hk hrs x).1 (hg.2 k hk rfl), ok_bind]; exact wr_nat (by have := hg.1; omega), by simp [hl]⟩
    · intro i o h0 hi hl hg
      obtain ⟨k, rfl⟩ : ∃ k : Nat, i = k := ⟨i.toNat, by omega⟩
      have hk : k < rs.length := by rw [hrows] at hi; omega
      by_cases hx : ∀ e ∈ rs[k], e.1 < (x.length : Int)
      · rw [(row_release n rs k hk hrs x).1 hx, ok_bind]
        refine wr_oob (Or.inr ?_)
        by_contra hc
        refine hg ⟨by omega, fun k' hk' he => ?_⟩
        obtain rfl : k' = k := by omega
        exact hx
      · rw [(row_release n rs k hk hrs x).2 hx]; rfl
    · by_cases hy : (rs.length : Int) ≤ y.length
      · have : ¬ ∀ k (hk : k < rs.length), ∀ e ∈ rs[k], e.1 < (x.length : Int) := fun hx => h ⟨hy, hx⟩
        push Not at this
        obtain ⟨k, hk, e, he, hlt⟩ := this
        exact ⟨k, by omega, by rw [hrows]; omega, fun hg => absurd (hg.2 k hk rfl e he) (by omega)⟩
      · exact ⟨y.length, by omega, by rw [hrows]; omega, fun hg => by omega⟩

/-- **C137.**  `MultAT(x, y)` of a well-formed sparse matrix without assertions: it works exactly if `x` has an element for every
row that stores something and `y` has one for every stored column.  It then leaves the transposed product in `y`, and zeros in
what `y` has beyond the columns of the matrix. -/
theorem C137_multAT [NonUnitalNonAssocSemiring R] (A : Csr R) (hA : A.WF) (x y : List R) :
    ((∀ i, 0 ≤ i → i < A.rows → ∀ e ∈ A.row i, i < (x.length : Int) ∧ e.1 < (y.length : Int)) →
      ∃ y', Rel.multAT .release A x y = .ok y' ∧ VecIs y' y.length (fun j => A.tMulVec x j) ∧
        ∀ j, A.cols ≤ j → j < (y.length : Int) → rd y' j = .ok 0) ∧
    (¬ (∀ i, 0 ≤ i → i < A.rows → ∀ e ∈ A.row i, i < (x.length : Int) ∧ e.1 < (y.length : Int)) →
      Rel.multAT .release A x y = .error .outOfBounds) := by
  obtain ⟨n, rs, hn, hrs, rfl⟩ := hA.exists_rows
  have hrows : (Csr.ofRows n rs).rows = (rs.length : Int) := rfl
  have hc : (∀ i, 0 ≤ i → i < (Csr.ofRows n rs).rows → ∀ e ∈ (Csr.ofRows n rs).row i, i < (x.length : Int) ∧ e.1 < (y.length : Int)) ↔
      ∀ t ∈ triplesL rs, (0 ≤ t.1 ∧ t.1 < (x.length : Int)) ∧ 0 ≤ t.2.1 ∧ t.2.1 < (y.length : Int) := by
    constructor
    · intro h t ht
      obtain ⟨k, hk, h1, h2⟩ := mem_triplesL.mp ht
      have := h k (by omega) (by rw [hrows]; omega) t.2 (by rw [Csr.row_ofRows n rs k hk]; exact h2)
      have h3 := hrs _ (List.getElem_mem hk) _ h2
      omega
    · intro h i h0 hi e he
      obtain ⟨k, rfl⟩ : ∃ k : Nat, i = k := ⟨i.toNat, by omega⟩
      have hk : k < rs.length := by rw [hrows] at hi; omega
      rw [Csr.row_ofRows n rs k hk] at he
      have := h ((k : Int), e) (mem_triplesL.mpr ⟨k, hk, rfl, he⟩)
      simp only at this
      omega
  rw [hc]
  have hrun : Rel.multAT .release (Csr.ofRows n rs) x y = (triplesL rs).foldlM (fun (out : List R) t => do
        let a ← Rel.vrd .release x t.1
        let old ← Rel.vrd .release out t.2.1
        Rel.vwr .release out t.2.1 (old + t.2.2 * a)) (List.replicate y.length 0) :=
    rowLoop_ofRows n rs _ _ (fun i e (out : List R) => do
        let a ← Rel.vrd .release x i
        let old ← Rel.vrd .release out e.1
        Rel.vwr .release out e.1 (old + e.2 * a)) (by
      intro k m hk hm s
      rw [rd_data_ofRows n rs k m hk hm, rd_indices_ofRows n rs k m hk hm]
      rfl)
  have hs := scatter_release (triplesL rs) (fun t => t.1) (fun t => t.2.1) (fun t => t.2.2) x y
  constructor
  · intro h
    have hv : VecIs (vecFn y.length (fun i => ((triplesL rs).map (fun e => if e.2.1 = i then e.2.2 * vecAt x e.1 else 0)).sum))
        y.length (fun j => (Csr.ofRows n rs).tMulVec x j) := by
      refine (is_vecFn _ _).congr (fun j _ _ => ?_)
      have := rowCoef_scatter n rs (vecAt x) j
      rw [rowCoef_eq_sum_ite, List.map_map] at this
      exact this
    refine ⟨_, by rw [hrun]; exact hs.1 h, hv, ?_⟩
    intro j h0 h1
    have h0' : n ≤ j := h0
    rw [hv.get_eq j (by omega) h1]
    congr 1
    apply Finset.sum_eq_zero
    intro i hi
    have hi' := Finset.mem_Ico.mp hi
    obtain ⟨k, rfl⟩ : ∃ k : Nat, i = k := ⟨i.toNat, by omega⟩
    have hk : k < rs.length := by have := hi'.2; rw [hrows] at this; omega
    rw [coef_ofRows n rs k hk]
    have : rowCoef rs[k] j = 0 := by
      rw [rowCoef_eq_sum_ite]
      apply List.sum_eq_zero
      intro v hv
      obtain ⟨e, he, rfl⟩ := List.mem_map.mp hv
      rw [if_neg (by have := hrs _ (List.getElem_mem hk) e he; omega)]
    rw [this, zero_mul]
  · intro h
    rw [hrun]
    exact hs.2 h

/-- C137: a 2 x 3 matrix that stores nothing in its last column is multiplied by vectors of 2 and 3 elements without a complaint;
with a vector of 1 element memory beyond it is read. -/
example : ∃ A : Csr Int, A.WF ∧ A.mult [5, 7] [0, 0, 9] = .error .assertFail ∧
    Rel.mult .release A [5, 7] [0, 0, 9] = .ok [5, 14, 9] ∧ Rel.mult .release A [5] [0, 0] = .error .outOfBounds ∧
    Rel.multAT .release A [5, 7] [1, 1, 1, 1] = .ok [5, 14, 0, 0] :=
  ⟨⟨2, 3, [0, 1, 2], [0, 1], [1, 2]⟩, by decide, by decide, by decide, by decide, by decide⟩

/-- **C137.**  Without assertions the constructor of a sparse matrix from arrays accepts anything, and `Add` of a coordinate
matrix stores any entry. -/
theorem C137_accepts {α : Type} (p ix : List Int) (d : List α) (rows cols : Int) (C : Coo α) (i j : Int) (v : α) :
    Rel.ofArrays .release p ix d rows cols = .ok ⟨rows, cols, p, ix, d⟩ ∧
    Rel.cooAdd .release C i j v = .ok { C with entries := C.entries ++ [(i, j, v)] } := by
  constructor
  · unfold Rel.ofArrays Build.assert Build.firstPtr
    simp
  · unfold Rel.cooAdd Build.assert
    simp

/-- **C137.**  `ToSparse` of a coordinate matrix with an entry outside its rows (one that `Add` would have refused) accesses memory
outside the row pointers. -/
theorem C137_toSparse_row [Zero R] [Add R] (C : Coo R) (hs : C.sizeSet = true) (hr : 0 ≤ C.rows)
    (h : ∃ e ∈ C.entries, ¬ (0 ≤ e.1 ∧ e.1 < C.rows)) : Rel.toSparse .release C = .error .outOfBounds := by
  obtain ⟨N, hN⟩ : ∃ N : Nat, C.rows = N := ⟨C.rows.toNat, by omega⟩
  unfold Rel.toSparse
  have hf : C.findSize = (C.rows, C.cols) := by unfold Coo.findSize; rw [if_pos hs]
  have hne : C.entries.isEmpty = false := by
    obtain ⟨e, he, -⟩ := h
    cases hE : C.entries with
    | nil => rw [hE] at he; simp at he
    | cons => rfl
  have e1 : mkVec (C.rows + 1) (0 : Int) = .ok (List.replicate (N + 1) 0) := by rw [hN]; exact mkVec_nat (N + 1) 0
  have e2 : mkVec C.rows ([] : List (Int × Int)) = .ok (List.replicate N []) := by rw [hN]; exact mkVec_nat N []
  have key : C.entries.foldlM Coo.countStep (List.replicate (N + 1) (0 : Int), List.replicate N ([] : List (Int × Int)))
      = .error .outOfBounds := by
    refine foldlM_fails (fun (s : List Int × List (List (Int × Int))) => s.1.length = N + 1 ∧ s.2.length = N)
      (fun e => 0 ≤ e.1 ∧ e.1 < C.rows) .outOfBounds (by simp) ?_ ?_ h
    · rintro ⟨p, ms⟩ e _ ⟨h1, h2⟩ ⟨g0, g1⟩
      simp only at h1 h2
      unfold Coo.countStep
      simp only
      rw [rd_int g0 (by omega), ok_bind]
      cases (ms[e.1.toNat]'(by omega)).lookup e.2.1 with
      | some k => exact ⟨_, rfl, h1, h2⟩
      | none =>
        simp only
        rw [rd_int (by omega) (by omega), ok_bind, wr_int (by omega) (by omega), ok_bind, wr_int g0 (by omega), ok_bind]
        exact ⟨_, rfl, by simp [h1], by simp [h2]⟩
    · rintro ⟨p, ms⟩ e _ ⟨h1, h2⟩ hg
      simp only at h1 h2
      unfold Coo.countStep
      simp only
      rw [rd_oob (by omega)]; rfl
  rw [hf]
  simp only [hne, Bool.false_eq_true, if_false]
  rw [e1, ok_bind, e2, ok_bind, key]
  rfl

/-- C137: a column outside the matrix is not noticed when it is added, when the matrix is converted, nor by the product with a
vector of the documented length, which reads past its end. -/
example : ∃ C C' : Coo Int, ∃ A : Csr Int, C.add 0 5 7 = .error .assertFail ∧ Rel.cooAdd .release C 0 5 7 = .ok C' ∧
    Rel.toSparse .release C' = .ok A ∧ A.rows = 2 ∧ A.cols = 2 ∧ ¬ A.WF ∧ Rel.mult .release A [1, 1] [0, 0] = .error .outOfBounds :=
  ⟨⟨2, 2, true, []⟩, ⟨2, 2, true, [(0, 5, 7)]⟩, ⟨2, 2, [0, 1, 1], [5], [7]⟩, by decide, by decide, by decide, by decide, by decide,
    by decide, by decide⟩

/-- **C137.**  `Mult(x, y)` of a coordinate matrix without assertions: it works exactly if every entry lies inside the vectors, and
then computes the product; the sizes of the matrix (0 x 0 while none were set) have no influence. -/
theorem C137_cooMult [NonUnitalNonAssocSemiring R] (C : Coo R) (x y : List R) :
    ((∀ e ∈ C.entries, (0 ≤ e.2.1 ∧ e.2.1 < (x.length : Int)) ∧ 0 ≤ e.1 ∧ e.1 < (y.length : Int)) →
      ∃ y', Rel.cooMult .release C x y = .ok y' ∧
        VecIs y' y.length (fun i => ∑ j ∈ Finset.Ico 0 (x.length : Int), C.coef i j * vecAt x j)) ∧
    (¬ (∀ e ∈ C.entries, (0 ≤ e.2.1 ∧ e.2.1 < (x.length : Int)) ∧ 0 ≤ e.1 ∧ e.1 < (y.length : Int)) →
      Rel.cooMult .release C x y = .error .outOfBounds) := by
  have hs := scatter_release C.entries (fun e => e.2.1) (fun e => e.1) (fun e => e.2.2) x y
  constructor
  · intro h
    refine ⟨_, hs.1 h, (is_vecFn _ _).congr (fun i _ _ => ?_)⟩
    exact sum_triples_row C.entries (fun e he => (h e he).1) (vecAt x) i
  · exact hs.2

/-- **C137.**  `MultAT(x, y)` of a coordinate matrix without assertions.  The size assertions of this function are those of `Mult`
(C21), so a debug build rejects every correct call for a rectangular matrix; a release build answers it correctly. -/
theorem C137_cooMultAT [NonUnitalNonAssocSemiring R] (C : Coo R) (x y : List R) :
    ((∀ e ∈ C.entries, (0 ≤ e.1 ∧ e.1 < (x.length : Int)) ∧ 0 ≤ e.2.1 ∧ e.2.1 < (y.length : Int)) →
      ∃ y', Rel.cooMultAT .release C x y = .ok y' ∧
        VecIs y' y.length (fun j => ∑ i ∈ Finset.Ico 0 (x.length : Int), C.coef i j * vecAt x i)) ∧
    (¬ (∀ e ∈ C.entries, (0 ≤ e.1 ∧ e.1 < (x.length : Int)) ∧ 0 ≤ e.2.1 ∧ e.2.1 < (y.length : Int)) →
      Rel.cooMultAT .release C x y = .error .outOfBounds) := by
  have hs := scatter_release C.entries (fun e => e.1) (fun e => e.2.1) (fun e => e.2.2) x y
  constructor
  · intro h
    refine ⟨_, hs.1 h, (is_vecFn _ _).congr (fun i _ _ => ?_)⟩
    exact sum_triples_col C.entries (fun e he => (h e he).1) (vecAt x) i
  · exact hs.2

/-- C137: the transposed product with a 1 x 2 matrix, in both builds. -/
example : ∃ C : Coo Int, C.WF ∧ C.multAT [5] [0, 0] = .error .assertFail ∧ Rel.cooMultAT .release C [5] [0, 0] = .ok [0, 15] :=
  ⟨⟨1, 2, true, [(0, 1, 3)]⟩, by decide, by decide, by decide⟩

end Linalg
