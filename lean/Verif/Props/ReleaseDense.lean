import Verif.Model.ReleaseDense
import Verif.Proof.Release
import Verif.Props.DenseBasic
import Verif.Props.LapackDense

/-! # C139: dense matrices without assertions -/

namespace Linalg
open Cpp

variable {α R : Type}

/-- **C139.**  With assertions the functions are those of the other models. -/
theorem C139_debug :
    (∀ (D : Dense α) (i j : Int), Rel.dget .debug D i j = D.get i j) ∧
    (∀ (D : Dense α) (i j : Int) (x : α), Rel.dput .debug D i j x = D.put i j x) ∧
    (∀ (m n : Int) (d : List α), Rel.dofData .debug m n d = Dense.ofData m n d) ∧
    (∀ [Zero α] [Add α] [Mul α] (D : Dense α) (x y : List α), Rel.dmult .debug D x y = D.mult x y ∧ Rel.dmultAT .debug D x y = D.multAT x y) ∧
    (∀ [Zero α] [Add α] [Mul α] (A B C : Dense α), Rel.dmultD .debug A B C = A.multDInto B C ∧ Rel.dmultATD .debug A B C = A.multATDInto B C ∧
      Rel.dmultBTD .debug A B C = A.multBTDInto B C ∧ Rel.dmultABTD .debug A B C = A.multABTDInto B C) ∧
    (∀ (f : α → α → α) (D E : Dense α), Rel.dzip .debug f D E = Dense.zipUpdate f D E) ∧
    (∀ [Zero α] (L : LapackDense α) (D : Dense α), Rel.dinvert .debug L D = D.invert L) :=
  ⟨fun _ _ _ => rfl, fun _ _ _ _ => rfl, fun _ _ _ => rfl, fun _ _ _ => ⟨rfl, rfl⟩, fun _ _ _ => ⟨rfl, rfl, rfl, rfl⟩, fun _ _ _ => rfl,
    fun _ _ => rfl⟩

theorem Refines.dcheck (D : Dense α) (i j : Int) : Refines (Rel.dcheck .debug D i j) (Rel.dcheck .release D i j) :=
  (Refines.assert _).bind fun _ => (Refines.assert _).bind fun _ => (Refines.assert _).bind fun _ => Refines.assert _

theorem Refines.dget (D : Dense α) (i j : Int) : Refines (Rel.dget .debug D i j) (Rel.dget .release D i j) :=
  (Refines.dcheck D i j).bind fun _ => Refines.refl _

/-- **C139.**  A call that passes the assertions gives the same result when they are compiled away. -/
theorem C139_same :
    (∀ (D : Dense α) (i j : Int), Refines (D.get i j) (Rel.dget .release D i j)) ∧
    (∀ (D : Dense α) (i j : Int) (x : α), Refines (D.put i j x) (Rel.dput .release D i j x)) ∧
    (∀ [Zero α] [Add α] [Mul α] (D : Dense α) (x y : List α), Refines (D.mult x y) (Rel.dmult .release D x y) ∧
      Refines (D.multAT x y) (Rel.dmultAT .release D x y)) ∧
    (∀ [Zero α] [Add α] [Mul α] (A B C : Dense α), Refines (A.multDInto B C) (Rel.dmultD .release A B C) ∧
      Refines (A.multATDInto B C) (Rel.dmultATD .release A B C) ∧ Refines (A.multBTDInto B C) (Rel.dmultBTD .release A B C) ∧
      Refines (A.multABTDInto B C) (Rel.dmultABTD .release A B C)) ∧
    (∀ (f : α → α → α) (D E : Dense α), Refines (Dense.zipUpdate f D E) (Rel.dzip .release f D E)) ∧
    (∀ [Zero α] (L : LapackDense α) (D : Dense α), Refines (D.invert L) (Rel.dinvert .release L D)) := by
  refine ⟨Refines.dget, fun D i j x => (Refines.dcheck D i j).bind fun _ => Refines.refl _, fun D x y => ⟨?_, ?_⟩, fun A B C => ⟨?_, ?_, ?_, ?_⟩,
    fun f D E => ?_, fun L D => ?_⟩
  · exact (Refines.assert _).bind fun _ => (Refines.assert _).bind fun _ => Refines.forUp fun j _ => Refines.forUp fun i _ =>
      (Refines.dget D i j).bind fun _ => (Refines.vrd x j).bind fun _ => (Refines.vrd _ i).bind fun _ => Refines.vwr _ _ _
  · exact (Refines.assert _).bind fun _ => (Refines.assert _).bind fun _ => Refines.forUp fun j _ => (Refines.forUp fun i _ =>
      (Refines.dget D i j).bind fun _ => (Refines.vrd x i).bind fun _ => Refines.refl _).bind fun _ => Refines.vwr _ _ _
  · exact (Refines.assert _).bind fun _ => Refines.refl _
  · exact (Refines.assert _).bind fun _ => Refines.refl _
  · exact (Refines.assert _).bind fun _ => Refines.refl _
  · exact (Refines.assert _).bind fun _ => Refines.refl _
  · exact (Refines.assert _).bind fun _ => (Refines.assert _).bind fun _ => Refines.refl _
  · rw [← C139_debug.2.2.2.2.2.2 L D]
    unfold Rel.dinvert
    refine (Refines.refl _).bind fun _ => ?_
    split
    · exact Refines.refl _
    · exact (Refines.refl _).bind fun _ => (Refines.refl _).bind fun _ => (Refines.refl _).bind fun _ => (Refines.refl _).bind fun _ =>
        (Refines.assert _).bind fun _ => Refines.refl _

/-! ## Elements -/

theorem Dense.rd_flat [Zero α] {D : Dense α} (hD : D.WF) {k : Int} (k0 : 0 ≤ k) (k1 : k < D.data.length) :
    0 < D.rows ∧ rd D.data k = .ok (D.entry (k % D.rows) (k / D.rows)) ∧ 0 ≤ k / D.rows ∧ k / D.rows < D.cols := by
  have hs := hD.size
  have r0 : 0 < D.rows := by
    rcases lt_or_eq_of_le hD.rows_nonneg with h | h
    · exact h
    · rw [← h, zero_mul] at hs; omega
  have c1 : k / D.rows < D.cols := Int.ediv_lt_of_lt_mul r0 (by rw [mul_comm]; omega)
  have c0 : 0 ≤ k / D.rows := Int.ediv_nonneg k0 r0.le
  refine ⟨r0, ?_, c0, c1⟩
  have := (C33_get D hD (k % D.rows) (k / D.rows) (Int.emod_nonneg _ r0.ne') (Int.emod_lt_of_pos _ r0) c0 c1).2
  rwa [show k % D.rows + k / D.rows * D.rows = k by rw [mul_comm]; exact Int.emod_add_mul_ediv k D.rows] at this

/-- **C139.**  `D(i, j)` without assertions, for any `i` and `j`: if the address `i + j * rows` is in the buffer, it is an access to the element that lies there -
for a row past the end, an element of a later column - and otherwise an access outside the buffer. -/
theorem C139_access [Zero α] (D : Dense α) (hD : D.WF) (i j : Int) (x : α) :
    (0 ≤ i + j * D.rows ∧ i + j * D.rows < D.rows * D.cols →
      ∃ k l, i + j * D.rows = k + l * D.rows ∧ 0 ≤ k ∧ k < D.rows ∧ 0 ≤ l ∧ l < D.cols ∧
        Rel.dget .release D i j = .ok (D.entry k l) ∧
        ∃ E, Rel.dput .release D i j x = .ok E ∧ E.Is D.rows D.cols (fun a b => if a = k ∧ b = l then x else D.entry a b)) ∧
    (¬ (0 ≤ i + j * D.rows ∧ i + j * D.rows < D.rows * D.cols) →
      Rel.dget .release D i j = .error .outOfBounds ∧ Rel.dput .release D i j x = .error .outOfBounds) := by
  have hs := hD.size
  constructor
  · rintro ⟨k0, k1⟩
    obtain ⟨r0, h1, c0, c1⟩ := Dense.rd_flat hD k0 (by omega)
    set K := i + j * D.rows with hK
    have e : K % D.rows + K / D.rows * D.rows = K := by rw [mul_comm]; exact Int.emod_add_mul_ediv K D.rows
    have m0 := Int.emod_nonneg K r0.ne'
    have m1 := Int.emod_lt_of_pos K r0
    obtain ⟨E, e1, e2⟩ := C33_put D hD (K % D.rows) (K / D.rows) x m0 m1 c0 c1
    refine ⟨K % D.rows, K / D.rows, e.symm, m0, m1, c0, c1, h1, E, ?_, e2⟩
    rw [← e1]
    unfold Dense.put
    rw [Dense.checkIdx_ok m0 m1 c0 c1, e]
    rfl
  · intro h
    have h' : ¬ (0 ≤ i + j * D.rows ∧ i + j * D.rows < D.data.length) := by rw [hs]; exact h
    constructor
    · show rd D.data (i + j * D.rows) = _
      exact rd_oob (by omega)
    · show (wr D.data (i + j * D.rows) x >>= fun d => _) = _
      rw [wr_oob (by omega)]
      rfl

/-- **C139.**  The constructor accepts any array and any sizes, where the debug build accepts those that fit. -/
theorem C139_ofData (m n : Int) (d : List α) :
    ∃ D : Dense α, Rel.dofData .release m n d = .ok D ∧ D.rows = m ∧ D.cols = n ∧ D.data = d ∧
      (D.WF → Rel.dofData .debug m n d = .ok D) ∧ (¬ D.WF → Rel.dofData .debug m n d = .error .assertFail) := by
  refine ⟨⟨m, n, d⟩, rfl, rfl, rfl, rfl, fun h => ?_, fun h => ?_⟩
  · show Dense.ofData m n d = _
    unfold Dense.ofData
    rw [cassert_true h.rows_nonneg, ok_bind, cassert_true h.cols_nonneg, ok_bind, cassert_true h.size, ok_bind]
  · show Dense.ofData m n d = _
    unfold Dense.ofData
    by_cases h1 : m ≥ 0
    · by_cases h2 : n ≥ 0
      · have h3 : ¬ (d.length : Int) = m * n := fun h3 => h ⟨h1, h2, h3⟩
        rw [cassert_true h1, ok_bind, cassert_true h2, ok_bind, cassert_false h3]
        rfl
      · rw [cassert_true h1, ok_bind, cassert_false h2]
        rfl
    · rw [cassert_false h1]
      rfl

/-! ## Products with vectors -/

theorem Rel.dget_ok [Zero α] {D : Dense α} (hD : D.WF) (b : Build) {i j : Int} (h0 : 0 ≤ i) (h1 : i < D.rows) (h2 : 0 ≤ j) (h3 : j < D.cols) :
    Rel.dget b D i j = .ok (D.entry i j) := by
  have h := (C33_get D hD i j h0 h1 h2 h3).1
  cases b
  · exact h
  · exact C139_same.1 D i j _ h

/-- **C139.**  `Mult(x, y)` without assertions, for vectors of any lengths.  For a matrix that is not empty it works exactly if `x` and `y` are long enough; the
elements of `y` past the rows of the matrix become zero.  Otherwise it accesses memory outside the vectors. -/
theorem C139_mult [NonUnitalNonAssocSemiring R] (D : Dense R) (hD : D.WF) (x y : List R) :
    ((D.rows = 0 ∨ D.cols = 0 ∨ (D.cols ≤ x.length ∧ D.rows ≤ y.length)) →
      ∃ y', Rel.dmult .release D x y = .ok y' ∧
        VecIs y' y.length (fun i => if i < D.rows then ∑ j ∈ Finset.Ico 0 D.cols, D.entry i j * vecAt x j else 0)) ∧
    (¬ (D.rows = 0 ∨ D.cols = 0 ∨ (D.cols ≤ x.length ∧ D.rows ≤ y.length)) → Rel.dmult .release D x y = .error .outOfBounds) := by
  have hr := hD.rows_nonneg
  have hc := hD.cols_nonneg
  have hun : Rel.dmult .release D x y = forUp 0 D.cols (List.replicate y.length (0 : R)) (fun j output =>
      forUp 0 D.rows output (fun i output => do
        let a ← Rel.dget .release D i j
        let x ← rd x j
        let old ← rd output i
        wr output i (old + a * x))) := rfl
  rw [hun]
  constructor
  · intro h
    refine ⟨vecFn y.length (fun i => if i < D.rows then ∑ j ∈ Finset.Ico 0 D.cols, D.entry i j * vecAt x j else 0), ?_, is_vecFn _ _⟩
    have e0 : List.replicate y.length (0 : R)
        = vecFn y.length (fun i => if i < D.rows then ∑ j ∈ Finset.Ico (0 : Int) 0, D.entry i j * vecAt x j else 0) := by
      rw [replicate_vecFn]
      apply vecFn_congr; intros; simp
    rw [e0]
    refine forUp_seq hc (fun k => vecFn y.length (fun i => if i < D.rows then ∑ j ∈ Finset.Ico (0 : Int) k, D.entry i j * vecAt x j else 0)) ?_
    intro k k0 k1
    have e1 : vecFn y.length (fun i => if i < D.rows then ∑ j ∈ Finset.Ico (0 : Int) k, D.entry i j * vecAt x j else 0)
        = vecFn y.length (fun i => if i < 0 then (if i < D.rows then ∑ j ∈ Finset.Ico (0 : Int) (k + 1), D.entry i j * vecAt x j else 0)
          else if i < D.rows then ∑ j ∈ Finset.Ico (0 : Int) k, D.entry i j * vecAt x j else 0) := by
      apply vecFn_congr; intro i i0 _; rw [if_neg (show ¬ i < 0 by omega)]
    have e2 : vecFn y.length (fun i => if i < D.rows then ∑ j ∈ Finset.Ico (0 : Int) (k + 1), D.entry i j * vecAt x j else 0)
        = vecFn y.length (fun i => if i < D.rows then (if i < D.rows then ∑ j ∈ Finset.Ico (0 : Int) (k + 1), D.entry i j * vecAt x j else 0)
          else if i < D.rows then ∑ j ∈ Finset.Ico (0 : Int) k, D.entry i j * vecAt x j else 0) := by
      apply vecFn_congr; intro i i0 _
      by_cases hi : i < D.rows <;> simp [hi]
    rw [e1, e2]
    refine forUp_seq hr (fun p => vecFn y.length (fun i => if i < p then (if i < D.rows then ∑ j ∈ Finset.Ico (0 : Int) (k + 1), D.entry i j * vecAt x j else 0)
          else if i < D.rows then ∑ j ∈ Finset.Ico (0 : Int) k, D.entry i j * vecAt x j else 0)) ?_
    intro p p0 p1
    have hp : p < (y.length : Int) := by omega
    rw [Rel.dget_ok hD .release p0 p1 k0 k1, ok_bind, rd_vecAt x k0 (by omega), ok_bind, rd_vecFn p0 hp, ok_bind, wr_vecFn _ p0 hp]
    congr 1
    apply vecFn_congr
    intro i i0 i1
    by_cases hi : i = p
    · subst hi
      rw [if_pos rfl, if_neg (lt_irrefl _), if_pos p1, if_pos (by omega), if_pos p1, sum_Ico_succ _ k0]
    · rw [if_neg hi]
      congr 1
      apply propext
      omega
  · intro h
    push Not at h
    obtain ⟨h1, h2, h3⟩ := h
    have c1 : 0 < D.cols := by omega
    have r1 : 0 < D.rows := by omega
    by_cases hy : D.rows ≤ y.length
    · have hx : (x.length : Int) < D.cols := by
        by_contra hx
        exact absurd (h3 (by omega)) (by omega)
      refine forUp_fails (fun _ (o : List R) => o.length = y.length) (fun j => j < (x.length : Int)) .outOfBounds (by simp) ?_ ?_
        ⟨x.length, by omega, hx, by omega⟩
      · intro j o j0 j1 ho hj
        obtain ⟨s, e, hs⟩ := forUp_inv (a := 0) (b := D.rows) hr (s := o) (f := fun i output => do
            let a ← Rel.dget .release D i j
            let x ← rd x j
            let old ← rd output i
            wr output i (old + a * x)) (fun _ (o : List R) => o.length = y.length) ho (by
          intro i o i0 i1 ho
          have hi : i < (o.length : Int) := by omega
          rw [Rel.dget_ok hD .release i0 i1 j0 j1, ok_bind, rd_vecAt x j0 hj, ok_bind, rd_vecAt o i0 hi, ok_bind]
          exact ⟨_, wr_int i0 hi, by simpa using ho⟩)
        exact ⟨s, e, hs⟩
      · intro j o j0 j1 ho hj
        rw [forUp_cons r1, Rel.dget_ok hD .release le_rfl r1 j0 j1, ok_bind, rd_oob (by omega)]
        rfl
    · have key : ∀ o : List R, o.length = y.length → forUp 0 D.rows o (fun i output => do
            let a ← Rel.dget .release D i 0
            let x ← rd x 0
            let old ← rd output i
            wr output i (old + a * x)) = .error .outOfBounds := by
        intro o ho
        by_cases hx : 0 < (x.length : Int)
        · refine forUp_fails (fun _ (o : List R) => o.length = y.length) (fun i => i < (y.length : Int)) .outOfBounds ho ?_ ?_
            ⟨y.length, by omega, by omega, by omega⟩
          · intro i o i0 i1 ho hi
            have hi : i < (o.length : Int) := by omega
            rw [Rel.dget_ok hD .release i0 i1 le_rfl c1, ok_bind, rd_vecAt x le_rfl hx, ok_bind, rd_vecAt o i0 hi, ok_bind]
            exact ⟨_, wr_int i0 hi, by simpa using ho⟩
          · intro i o i0 i1 ho hi
            rw [Rel.dget_ok hD .release i0 i1 le_rfl c1, ok_bind, rd_vecAt x le_rfl hx, ok_bind, rd_oob (by omega)]
            rfl
        · rw [forUp_cons r1, Rel.dget_ok hD .release le_rfl r1 le_rfl c1, ok_bind, rd_oob (by omega)]
          rfl
      rw [forUp_cons c1, key _ (by simp)]
      rfl

/-- **C139.**  `MultAT(x, y)`: the elements of `y` past the columns of the matrix keep their values. -/
theorem C139_multAT [NonUnitalNonAssocSemiring R] (D : Dense R) (hD : D.WF) (x y : List R) :
    ((D.cols = 0 ∨ (D.rows ≤ x.length ∧ D.cols ≤ y.length)) →
      ∃ y', Rel.dmultAT .release D x y = .ok y' ∧
        VecIs y' y.length (fun j => if j < D.cols then ∑ i ∈ Finset.Ico 0 D.rows, D.entry i j * vecAt x i else vecAt y j)) ∧
    (¬ (D.cols = 0 ∨ (D.rows ≤ x.length ∧ D.cols ≤ y.length)) → Rel.dmultAT .release D x y = .error .outOfBounds) := by
  have hr := hD.rows_nonneg
  have hc := hD.cols_nonneg
  have hun : Rel.dmultAT .release D x y = forUp 0 D.cols y (fun j output => do
      let val ← forUp 0 D.rows (0 : R) (fun i val => do
        let a ← Rel.dget .release D i j
        let x ← rd x i
        .ok (val + a * x))
      wr output j val) := rfl
  rw [hun]
  have hsum : D.rows ≤ x.length → ∀ j, 0 ≤ j → j < D.cols → forUp 0 D.rows (0 : R) (fun i val => do
        let a ← Rel.dget .release D i j
        let x ← rd x i
        .ok (val + a * x)) = .ok (∑ i ∈ Finset.Ico 0 D.rows, D.entry i j * vecAt x i) := by
    intro hx j j0 j1
    rw [sumLoop hr (fun i => D.entry i j * vecAt x i) _ 0 (by
      intro i v i0 i1
      rw [Rel.dget_ok hD .release i0 i1 j0 j1, ok_bind, rd_vecAt x i0 (by omega), ok_bind]), zero_add]
  constructor
  · intro h
    refine ⟨vecFn y.length (fun j => if j < D.cols then ∑ i ∈ Finset.Ico 0 D.rows, D.entry i j * vecAt x i else vecAt y j), ?_, is_vecFn _ _⟩
    have e0 : y = vecFn y.length (fun j => if j < 0 then ∑ i ∈ Finset.Ico 0 D.rows, D.entry i j * vecAt x i else vecAt y j) := by
      conv_lhs => rw [eq_vecFn_vecAt y]
      apply vecFn_congr; intro i i0 _; rw [if_neg (show ¬ i < 0 by omega)]
    conv_lhs => rw [e0]
    refine forUp_seq hc (fun k => vecFn y.length (fun j => if j < k then ∑ i ∈ Finset.Ico 0 D.rows, D.entry i j * vecAt x i else vecAt y j)) ?_
    intro k k0 k1
    have hk : k < (y.length : Int) := by omega
    rw [hsum (by omega) k k0 k1, ok_bind, wr_vecFn _ k0 hk]
    congr 1
    apply vecFn_congr
    intro j j0 j1
    by_cases hj : j = k
    · subst hj; rw [if_pos rfl, if_pos (by omega)]
    · rw [if_neg hj]
      congr 1
      apply propext
      omega
  · intro h
    push Not at h
    obtain ⟨h2, h3⟩ := h
    have c1 : 0 < D.cols := by omega
    by_cases hx : D.rows ≤ x.length
    · have := h3 hx
      refine forUp_fails (fun _ (o : List R) => o.length = y.length) (fun j => j < (y.length : Int)) .outOfBounds rfl ?_ ?_
        ⟨y.length, by omega, by omega, by omega⟩
      · intro j o j0 j1 ho hj
        rw [hsum hx j j0 j1, ok_bind]
        exact ⟨_, wr_int j0 (by omega), by simpa using ho⟩
      · intro j o j0 j1 ho hj
        rw [hsum hx j j0 j1, ok_bind]
        exact wr_oob (by omega)
    · have key : forUp 0 D.rows (0 : R) (fun i val => do
          let a ← Rel.dget .release D i 0
          let x ← rd x i
          .ok (val + a * x)) = .error .outOfBounds := by
        refine forUp_fails (fun _ _ => True) (fun i => i < (x.length : Int)) .outOfBounds trivial ?_ ?_ ⟨x.length, by omega, by omega, by omega⟩
        · intro i v i0 i1 _ hi
          rw [Rel.dget_ok hD .release i0 i1 le_rfl c1, ok_bind, rd_vecAt x i0 hi, ok_bind]
          exact ⟨_, rfl, trivial⟩
        · intro i v i0 i1 _ hi
          rw [Rel.dget_ok hD .release i0 i1 le_rfl c1, ok_bind, rd_oob (by omega)]
          rfl
      rw [forUp_cons c1, key]
      rfl

/-! ## Products of matrices -/

theorem gemm_threw [NonUnitalNonAssocSemiring R] (A B C : Dense R) (hA : A.WF) (hB : B.WF) (s : Bool) (hk : B.rows < A.opCols s) :
    A.gemm B C s false = .error .threw := by
  have ar := hA.rows_nonneg
  have ac := hA.cols_nonneg
  have br := hB.rows_nonneg
  have bc := hB.cols_nonneg
  obtain ⟨m, hm⟩ : ∃ m : Nat, A.opRows s = m := ⟨(A.opRows s).toNat, by unfold Dense.opRows; split <;> omega⟩
  obtain ⟨n, hn⟩ : ∃ n : Nat, B.cols = n := ⟨B.cols.toNat, by omega⟩
  obtain ⟨f, hf⟩ := Dense.setSize_ofFn C m n
  unfold Dense.gemm
  have e1 : (if s then A.cols else A.rows) = A.opRows s := rfl
  have e3 : (if s then A.rows else A.cols) = A.opCols s := rfl
  simp only [e1, e3, Bool.false_eq_true, if_false]
  rw [hm, hn, hf, ok_bind]
  unfold Dense.dgemm
  by_cases h1 : (m : Int) ≥ 0 ∧ (n : Int) ≥ 0 ∧ A.opCols s ≥ 0
  · rw [cverify_true h1, ok_bind]
    by_cases h2 : A.rows ≥ 1 ∧ A.rows ≥ (if s then A.opCols s else (m : Int))
    · rw [cverify_true h2, ok_bind, cverify_false (by simp; omega)]
      rfl
    · rw [cverify_false h2]
      rfl
  · rw [cverify_false h1]
    rfl

theorem gemm_oob [NonUnitalNonAssocSemiring R] (A B C : Dense R) (hA : A.WF) (hB : B.WF) (s : Bool)
    (hk : B.cols < A.opCols s) (hA1 : 1 ≤ A.rows) (hB1 : 1 ≤ B.rows) (hC1 : 1 ≤ A.opRows s) :
    A.gemm B C s true = .error .outOfBounds := by
  have ar := hA.rows_nonneg
  have ac := hA.cols_nonneg
  have br := hB.rows_nonneg
  have bc := hB.cols_nonneg
  have hs := hB.size
  obtain ⟨m, hm⟩ : ∃ m : Nat, A.opRows s = m := ⟨(A.opRows s).toNat, by omega⟩
  obtain ⟨n, hn⟩ : ∃ n : Nat, B.rows = n := ⟨B.rows.toNat, by omega⟩
  obtain ⟨f, hf⟩ := Dense.setSize_ofFn C m n
  unfold Dense.gemm
  have e1 : (if s then A.cols else A.rows) = A.opRows s := rfl
  have e3 : (if s then A.rows else A.cols) = A.opCols s := rfl
  simp only [e1, e3, if_true]
  rw [hm, hn, hf, ok_bind]
  have hread : ∀ l : Int, 0 ≤ l → l < A.opCols s → Dense.blasAt s A.data A.rows 0 l = .ok (A.opEntry s 0 l) := by
    intro l c d
    unfold Dense.blasAt Dense.opEntry
    unfold Dense.opRows at hC1
    unfold Dense.opCols at d
    cases s
    · simp only [Bool.false_eq_true, if_false] at *
      exact Dense.rd_data hA le_rfl (by omega) c d
    · simp only [if_true] at *
      exact Dense.rd_data hA c d le_rfl (by omega)
  have hl1 : A.rows ≥ (if s then A.opCols s else (m : Int)) := by
    rw [← hm]; unfold Dense.opCols Dense.opRows; cases s <;> simp
  unfold Dense.dgemm
  rw [cverify_true ⟨by omega, by omega, by omega⟩, cverify_true ⟨hA1, hl1⟩, cverify_true ⟨by omega, by simp⟩,
    cverify_true ⟨by simp; omega, by simp⟩]
  simp only [ok_bind]
  have key : forUp 0 (A.opCols s) (0 : R) (fun l v => do
      let a ← Dense.blasAt s A.data A.rows 0 l
      let b ← Dense.blasAt true B.data (n : Int) l 0
      .ok (v + a * b)) = .error .outOfBounds := by
    refine forUp_fails (fun _ _ => True) (fun l => l < B.cols) .outOfBounds trivial ?_ ?_ ⟨B.cols, bc, hk, by omega⟩
    · intro l v l0 l1 _ hl
      rw [hread l l0 l1, ok_bind]
      have := Dense.rd_data hB le_rfl (show (0 : Int) < B.rows by omega) l0 hl
      unfold Dense.blasAt
      rw [if_pos rfl, ← hn, this]
      exact ⟨_, rfl, trivial⟩
    · intro l v l0 l1 _ hl
      rw [hread l l0 l1, ok_bind]
      unfold Dense.blasAt
      rw [if_pos rfl, rd_oob (by
        right
        rw [hs, ← hn, zero_add, mul_comm]
        exact mul_le_mul_of_nonneg_right (by omega) br)]
      rfl
  rw [forUp_cons (by omega), forUp_cons (by omega), key]
  rfl

/-- **C139.**  `A.Mult(B)` and `A.MultAT(B)` without assertions: if `B` has too many rows, only the first ones are used - the product is returned as if the
others were not there; if it has too few, `dgemm` reports an illegal leading dimension. -/
theorem C139_multD [NonUnitalNonAssocSemiring R] (A B C : Dense R) (hA : A.WF) (hB : B.WF) (hA1 : 1 ≤ A.rows) (hB1 : 1 ≤ B.rows) :
    (A.cols ≤ B.rows → ∃ E, Rel.dmultD .release A B C = .ok E ∧ E.Is A.rows B.cols (fun i j => ∑ l ∈ Finset.Ico 0 A.cols, A.entry i l * B.entry l j)) ∧
    (B.rows < A.cols → Rel.dmultD .release A B C = .error .threw) ∧
    (A.rows ≤ B.rows → 1 ≤ A.cols → ∃ E, Rel.dmultATD .release A B C = .ok E ∧ E.Is A.cols B.cols (fun i j =>
      ∑ l ∈ Finset.Ico 0 A.rows, A.entry l i * B.entry l j)) ∧
    (B.rows < A.rows → Rel.dmultATD .release A B C = .error .threw) :=
  ⟨fun h => gemm_eq A B C hA hB false false h hA1 hB1 hA1, fun h => gemm_threw A B C hA hB false h,
    fun h h' => gemm_eq A B C hA hB true false h hA1 hB1 h', fun h => gemm_threw A B C hA hB true h⟩

/-- **C139.**  `A.MultBT(B)` and `A.MultABT(B)`: if `B` has too many columns, only the first ones are used; if it has too few, `dgemm` reads past the end of `B`. -/
theorem C139_multBTD [NonUnitalNonAssocSemiring R] (A B C : Dense R) (hA : A.WF) (hB : B.WF) (hA1 : 1 ≤ A.rows) (hB1 : 1 ≤ B.rows) :
    (A.cols ≤ B.cols → ∃ E, Rel.dmultBTD .release A B C = .ok E ∧ E.Is A.rows B.rows (fun i j => ∑ l ∈ Finset.Ico 0 A.cols, A.entry i l * B.entry j l)) ∧
    (B.cols < A.cols → Rel.dmultBTD .release A B C = .error .outOfBounds) ∧
    (A.rows ≤ B.cols → 1 ≤ A.cols → ∃ E, Rel.dmultABTD .release A B C = .ok E ∧ E.Is A.cols B.rows (fun i j =>
      ∑ l ∈ Finset.Ico 0 A.rows, A.entry l i * B.entry j l)) ∧
    (B.cols < A.rows → 1 ≤ A.cols → Rel.dmultABTD .release A B C = .error .outOfBounds) :=
  ⟨fun h => gemm_eq A B C hA hB false true h hA1 hB1 hA1, fun h => gemm_oob A B C hA hB false h hA1 hB1 hA1,
    fun h h' => gemm_eq A B C hA hB true true h hA1 hB1 h', fun h h' => gemm_oob A B C hA hB true h hA1 hB1 h'⟩

/-! ## Sums, differences, inverse -/

/-- **C139.**  `D += E` and `D -= E` for matrices of different shapes: the buffers are combined position by position, whatever elements lie there; with
fewer elements in `E` than in `D` it reads past the end. -/
theorem C139_zip [Zero α] (f : α → α → α) (D E : Dense α) (hD : D.WF) (hE : E.WF) :
    (D.rows * D.cols ≤ E.rows * E.cols → ∃ S, Rel.dzip .release f D E = .ok S ∧
      S.Is D.rows D.cols (fun i j => f (D.entry i j) (E.entry ((i + j * D.rows) % E.rows) ((i + j * D.rows) / E.rows)))) ∧
    (E.rows * E.cols < D.rows * D.cols → Rel.dzip .release f D E = .error .outOfBounds) := by
  have hs := hD.size
  have hs' := hE.size
  have hun : Rel.dzip .release f D E = (forUp 0 (D.rows * D.cols) D.data (fun i data => do
      let a ← rd data i
      let c ← rd E.data i
      wr data i (f a c)) >>= fun data => .ok { D with data := data }) := rfl
  rw [hun, ← hs]
  constructor
  · intro h
    have hf : forUp 0 (D.data.length : Int) D.data (fun i data => do
        let a ← rd data i
        let c ← rd E.data i
        wr data i (f a c)) = .ok (vecFn D.data.length (fun k => f (D.entry (k % D.rows) (k / D.rows)) (E.entry (k % E.rows) (k / E.rows)))) := by
      have e0 : D.data = vecFn D.data.length (fun k => D.entry (k % D.rows) (k / D.rows)) := by
        refine VecIs.eq_vecFn ⟨rfl, fun k k0 k1 => (Dense.rd_flat hD k0 (by exact_mod_cast k1)).2.1⟩
      conv_lhs => arg 3; rw [e0]
      refine fillLoop _ _ _ ?_
      intro k g k0 k1 hg
      rw [rd_vecFn k0 k1, ok_bind, (Dense.rd_flat hE k0 (by omega)).2.1, ok_bind, hg]
    rw [hf, ok_bind]
    refine ⟨_, rfl, ⟨⟨hD.rows_nonneg, hD.cols_nonneg, by simpa using hs⟩, rfl, rfl, ?_⟩⟩
    intro i j i0 i1 j0 j1
    unfold Dense.get
    rw [Dense.checkIdx_ok (by exact i0) (by exact i1) (by exact j0) (by exact j1), ok_bind]
    have k0 : 0 ≤ i + j * D.rows := by have := mul_nonneg j0 hD.rows_nonneg; omega
    have k1 : i + j * D.rows < D.data.length := by
      rw [hs]
      have : (j + 1) * D.rows ≤ D.cols * D.rows := mul_le_mul_of_nonneg_right (by omega) hD.rows_nonneg
      rw [add_mul, one_mul, mul_comm D.cols] at this
      omega
    dsimp only
    rw [rd_vecFn k0 k1, Int.add_mul_emod_self_right, Int.emod_eq_of_lt i0 i1, Int.add_mul_ediv_right _ _ (by omega), Int.ediv_eq_zero_of_lt i0 i1, zero_add]
  · intro h
    rw [forUp_fails (fun _ (o : List α) => o.length = D.data.length) (fun k => k < (E.data.length : Int)) .outOfBounds rfl (by
        intro k o k0 k1 ho hk
        rw [rd_int k0 (by omega), ok_bind, rd_int k0 hk, ok_bind]
        exact ⟨_, wr_int k0 (by omega), by simpa using ho⟩) (by
        intro k o k0 k1 ho hk
        rw [rd_int k0 (by omega), ok_bind, rd_oob (by omega)]
        rfl) ⟨E.data.length, by omega, by omega, by omega⟩]
    rfl

theorem Rel.dinvert_eq [Zero R] (L : LapackDense R) (hL : L.Sized) {D : Dense R} (hD : D.WF) {n : Nat} (h1 : 1 ≤ n) (hm : D.rows = n)
    (hn : D.cols = n) :
    Rel.dinvert .release L D = .ok ⟨n, n, (L.getri n (L.getrf n n D.data).1 (L.getrf n n D.data).2).1⟩ := by
  have hsz := Dense.data_length hD hm hn
  obtain ⟨f1, f2⟩ := hL.getrf n D.data h1 hsz
  have f3 := hL.getri n _ _ h1 f1 f2
  have hw := hL.getriWork n h1
  obtain ⟨r, c, d⟩ := D
  simp only at hm hn hsz f1 f2 f3 ⊢
  subst hm hn
  generalize hF : L.getrf n n d = F at *
  generalize hG : L.getri n F.1 F.2 = G at *
  have e1 : mkVec (Min.min (n : Int) n) (0 : Int) = .ok (List.replicate n 0) := by
    rw [min_self]; exact mkVec_nat n 0
  have e2 : Dense.callGetrf L n n d (List.replicate n 0) = .ok F := by
    unfold Dense.callGetrf
    rw [Eigen.need_ok (by rw [hsz]; push_cast; rfl), ok_bind, Eigen.need_ok (by simp), ok_bind]
    have e : ((n : Int) * n).toNat = d.length := by rw [hsz]; norm_cast
    simp only [e, List.take_length, Int.toNat_natCast]
    rw [hF, Eigen.overwrite_all (by omega), Eigen.overwrite_all (by simp; omega)]
  have e3 : mkVec (L.getriWork n) (0 : R) = .ok (List.replicate (L.getriWork n).toNat 0) := mkVec_int (by omega) 0
  have e4 : Dense.callGetri L n F.1 F.2 (List.replicate (L.getriWork n).toNat 0) (L.getriWork n) = .ok G := by
    unfold Dense.callGetri
    rw [cverify_true (by omega), ok_bind, Eigen.need_ok (by rw [f1]; push_cast; rfl), ok_bind, Eigen.need_ok (by omega), ok_bind,
      Eigen.need_ok (by simp), ok_bind]
    have e : ((n : Int) * n).toNat = F.1.length := by rw [f1]; norm_cast
    simp only [e, List.take_length, Int.toNat_natCast]
    rw [List.take_of_length_le (by omega), hG, Eigen.overwrite_all (by omega)]
  unfold Rel.dinvert
  simp only
  rw [cassert_true trivial, ok_bind, if_neg (by omega), e1, ok_bind, e2, ok_bind, e3, ok_bind, e4, ok_bind]
  rfl

/-- **C139.**  `Invert` of a square matrix without assertions: never an error; if the matrix has no inverse, what LAPACK has left of its factors is
returned in its place. -/
theorem C139_invert [CommRing R] [LE R] (L : LapackDense R) (hL : L.Exact) (D : Dense R) (hD : D.WF) (n : Nat) (hm : D.rows = n) (hn : D.cols = n) :
    (∃ E, Rel.dinvert .release L D = .ok E ∧ E.rows = n ∧ E.cols = n) ∧
    (IsUnit (D.mat n n).det → ∃ E, Rel.dinvert .release L D = .ok E ∧ E.WF ∧ E.mat n n * D.mat n n = 1 ∧ D.mat n n * E.mat n n = 1) ∧
    (¬ IsUnit (D.mat n n).det → Rel.dinvert .debug L D = .error .assertFail ∧ 1 ≤ n ∧
      Rel.dinvert .release L D = .ok ⟨n, n, (L.getri n (L.getrf n n D.data).1 (L.getrf n n D.data).2).1⟩) := by
  have h := C79_invert L hL D hD n hm hn
  have h2 : IsUnit (D.mat n n).det → ∃ E, Rel.dinvert .release L D = .ok E ∧ E.WF ∧ E.mat n n * D.mat n n = 1 ∧ D.mat n n * E.mat n n = 1 := by
    intro hu
    obtain ⟨E, e, h1, -, -, h2⟩ := h.1 hu
    exact ⟨E, C139_same.2.2.2.2.2 L D E e, h1, h2⟩
  rcases Nat.eq_zero_or_pos n with rfl | h1
  · have hu : IsUnit (D.mat 0 0).det := by rw [Matrix.det_isEmpty]; exact isUnit_one
    obtain ⟨E, e, -, r1, r2, -⟩ := h.1 hu
    exact ⟨⟨E, C139_same.2.2.2.2.2 L D E e, r1, r2⟩, h2, fun hn => absurd hu hn⟩
  · have e := Rel.dinvert_eq L hL.toSized hD h1 hm hn
    exact ⟨⟨_, e, rfl, rfl⟩, h2, fun hn => ⟨h.2 hn, h1, e⟩⟩

/-! ## Concrete cases -/

/-- A 2 x 3 matrix: row 2 of column 0 is row 0 of column 1; row -1 of column 1 is row 1 of column 0. -/
example : ∃ D : Dense Int, D.WF ∧ Rel.dget .release D 2 0 = .ok 3 ∧ Rel.dget .release D (-1) 1 = .ok 2 ∧ Rel.dget .release D 0 3 = .error .outOfBounds ∧
    Rel.dput .release D 3 1 9 = .ok ⟨2, 3, [1, 2, 3, 4, 5, 9]⟩ ∧ D.get 2 0 = .error .assertFail :=
  ⟨⟨2, 3, [1, 2, 3, 4, 5, 6]⟩, by decide, by decide, by decide, by decide, by decide, by decide⟩

/-- Products with vectors of wrong lengths. -/
example : ∃ D : Dense Int, D.WF ∧ Rel.dmult .release D [1, 10, 100, 7] [8, 8, 8] = .ok [531, 642, 0] ∧
    Rel.dmult .release D [1, 10] [8, 8] = .error .outOfBounds ∧ Rel.dmultAT .release D [1, 10] [8, 8, 8, 8] = .ok [21, 43, 65, 8] ∧
    Rel.dmultAT .release D [1] [8, 8, 8] = .error .outOfBounds ∧ D.mult [1, 10, 100, 7] [8, 8, 8] = .error .assertFail :=
  ⟨⟨2, 3, [1, 2, 3, 4, 5, 6]⟩, by decide, by decide, by decide, by decide, by decide, by decide⟩

/-- A 2 x 1 matrix times a 2 x 2 matrix: the second row of the second is ignored. -/
example : ∃ A B C : Dense Int, A.WF ∧ B.WF ∧ Rel.dmultD .release A B C = .ok ⟨2, 2, [5, 10, 7, 14]⟩ ∧ Rel.dmultD .release B A C = .ok ⟨2, 1, [19, 22]⟩ ∧
    Rel.dmultBTD .release A B C = .ok ⟨2, 2, [5, 10, 6, 12]⟩ ∧ Rel.dmultBTD .release B A C = .error .outOfBounds :=
  ⟨⟨2, 1, [1, 2]⟩, ⟨2, 2, [5, 6, 7, 8]⟩, ⟨0, 0, []⟩, by decide, by decide, by decide, by decide, by decide, by decide⟩

/-- A 1 x 4 matrix added to a 2 x 2 matrix. -/
example : ∃ D E : Dense Int, D.WF ∧ E.WF ∧ Rel.dzip .release (· + ·) D E = .ok ⟨2, 2, [11, 22, 33, 44]⟩ ∧
    Rel.dzip .debug (· + ·) D E = .error .assertFail :=
  ⟨⟨2, 2, [1, 2, 3, 4]⟩, ⟨1, 4, [10, 20, 30, 40]⟩, by decide, by decide, by decide, by decide⟩

end Linalg
