import Verif.Model.Floats
import Verif.Proof.Filter
import Verif.Proof.Solvers
import Verif.Props.Order
import Verif.Props.SparseMore
import Verif.Props.Solvers

/-! # C128: NaN and infinities -/

namespace Linalg
open Cpp Floats

variable {F : Type} [Floats F]

/-! ## Comparisons -/

/-- **C128.**  `x == y` is true exactly if the sizes agree and no difference compares greater than the tolerance. -/
theorem C128_eq_iff (tol : F) (x y : List F) :
    ∃ b, Flt.vecEq tol x y = .ok b ∧ (b = true ↔ x.length = y.length ∧
      ∀ i : Nat, ∀ (h1 : i < x.length) (h2 : i < y.length), lt tol (abs (x[i] - y[i])) = false) := by
  unfold Flt.vecEq
  by_cases h : x.length = y.length
  · rw [if_neg (by simpa using h)]
    obtain ⟨s, h1, h2⟩ := forUp_inv_nat (n := x.length) (f := fun i (bad : Bool) =>
        if bad then .ok true
        else do
          let a ← vrd x i
          let b ← vrd y i
          .ok (lt tol (abs (a - b))))
      (fun k bad => bad = false ↔ ∀ i : Nat, i < k → ∀ (h1 : i < x.length) (h2 : i < y.length), lt tol (abs (x[i] - y[i])) = false)
      (s := false) (by simp) (by
        intro k bad hk hI
        cases bad with
        | true =>
          refine ⟨true, by simp, ?_⟩
          constructor
          · intro h; cases h
          · intro h; exact hI.mpr (fun i hi => h i (by omega))
        | false =>
          refine ⟨lt tol (abs (x[k] - y[k])), ?_, ?_⟩
          · simp only [Bool.false_eq_true, if_false]
            rw [vrd_nat hk, ok_bind, vrd_nat (by omega), ok_bind]
          · have hall := hI.mp rfl
            constructor
            · intro h i hi hi1 hi2
              by_cases hik : i < k
              · exact hall i hik hi1 hi2
              · obtain rfl : i = k := by omega
                exact h
            · intro h; exact h k (by omega) hk (by omega))
    rw [h1]
    refine ⟨!s, rfl, ?_⟩
    rw [Bool.not_eq_true', h2]
    exact ⟨fun hh => ⟨h, fun i i1 i2 => hh i i1 i1 i2⟩, fun hh i _ i1 i2 => hh.2 i i1 i2⟩
  · rw [if_pos h]
    exact ⟨false, rfl, by simp [h]⟩

/-- **C128.**  Elements that are NaN are not compared: two vectors of the same size where at each place one of the two is NaN are equal. -/
theorem C128_eq_nan [NanLaws F] (tol : F) (x y : List F) (h : x.length = y.length)
    (hn : ∀ i : Nat, ∀ (h1 : i < x.length) (h2 : i < y.length), IsNan x[i] ∨ IsNan y[i]) : Flt.vecEq tol x y = .ok true := by
  obtain ⟨b, h1, h2⟩ := C128_eq_iff tol x y
  rw [h1, h2.mpr ⟨h, fun i i1 i2 => NanLaws.lt_nan _ _ (Or.inr (NanLaws.abs_nan _ (NanLaws.sub_nan _ _ (hn i i1 i2))))⟩]

/-- **C128.**  So equality does not tell 1 from 2: both equal NaN, for every tolerance; and with the tolerance of the code they differ. -/
theorem C128_eq_false : ∃ x y z : List (Ext ℚ), (∀ tol, Flt.vecEq tol x y = .ok true ∧ Flt.vecEq tol y z = .ok true) ∧
    Flt.vecEq (.fin (1 / 10 ^ 12)) x z = .ok false :=
  ⟨[.fin 1], [.nan], [.fin 2], fun tol => ⟨C128_eq_nan tol _ _ rfl (fun i _ h2 => by
      obtain rfl : i = 0 := by simpa using h2
      exact Or.inr rfl), C128_eq_nan tol _ _ rfl (fun i h1 _ => by
      obtain rfl : i = 0 := by simpa using h1
      exact Or.inl rfl)⟩, by decide +kernel⟩

/-- **C128.**  The same for dense matrices: true exactly if the shapes agree and no difference compares greater than the tolerance. -/
theorem C128_dense_iff (tol : F) {A B : Dense F} {m n m' n' : Int} {f g : Int → Int → F} (hA : A.Is m n f) (hB : B.Is m' n' g) :
    ∃ b, Flt.denseEq tol A B = .ok b ∧ (b = true ↔ (m = m' ∧ n = n') ∧
      ∀ i j, 0 ≤ i → i < m → 0 ≤ j → j < n → lt tol (abs (f i j - g i j)) = false) := by
  unfold Flt.denseEq
  by_cases h : m = m' ∧ n = n'
  · obtain ⟨rfl, rfl⟩ := h
    rw [if_neg (by rw [hA.rows_eq, hA.cols_eq, hB.rows_eq, hB.cols_eq]; simp), hA.rows_eq, hA.cols_eq]
    have hm := hA.wf.rows_nonneg
    have hn := hA.wf.cols_nonneg
    rw [hA.rows_eq] at hm
    rw [hA.cols_eq] at hn
    obtain ⟨b, h1, h2⟩ := forUp_inv (a := 0) (b := n) hn (f := fun j good =>
        forUp 0 m good (fun i good => do
          if good then
            let a ← A.get i j
            let b ← B.get i j
            .ok (!lt tol (abs (a - b)))
          else .ok false))
      (fun k good => good = true ↔ ∀ i j, 0 ≤ i → i < m → 0 ≤ j → j < k → lt tol (abs (f i j - g i j)) = false)
      (s := true) (by simp only [true_iff]; intro i j _ _ _ _; omega) (by
        intro j good j0 j1 hI
        obtain ⟨b, h1, h2⟩ := forUp_inv (a := 0) (b := m) hm (f := fun i good => do
            if good then
              let a ← A.get i j
              let b ← B.get i j
              .ok (!lt tol (abs (a - b)))
            else .ok false)
          (fun k good' => good' = true ↔ good = true ∧ ∀ i, 0 ≤ i → i < k → lt tol (abs (f i j - g i j)) = false)
          (s := good) (by
            constructor
            · intro h; exact ⟨h, fun i _ _ => by omega⟩
            · exact fun h => h.1) (by
            intro i good' i0 i1 hJ
            cases good' with
            | false =>
              refine ⟨false, by simp, ?_⟩
              constructor
              · intro h; cases h
              · intro h; exact hJ.mpr ⟨h.1, fun i' a b => h.2 i' a (by omega)⟩
            | true =>
              refine ⟨!lt tol (abs (f i j - g i j)), ?_, ?_⟩
              · simp only [if_true]
                rw [hA.get_eq i j i0 i1 j0 j1, ok_bind, hB.get_eq i j i0 i1 j0 j1, ok_bind]
              · obtain ⟨g1, g2⟩ := hJ.mp rfl
                rw [Bool.not_eq_true']
                constructor
                · intro h
                  refine ⟨g1, fun i' a b => ?_⟩
                  by_cases hi : i' = i
                  · subst hi; exact h
                  · exact g2 i' a (by omega)
                · intro h; exact h.2 i i0 (by omega))
        refine ⟨b, h1, ?_⟩
        rw [h2, hI]
        constructor
        · rintro ⟨a, b⟩ i j' i0 i1 j0' j1'
          by_cases hj : j' = j
          · subst hj; exact b i i0 i1
          · exact a i j' i0 i1 j0' (by omega)
        · intro h
          exact ⟨fun i j' a b c d => h i j' a b c (by omega), fun i a b => h i j a b j0 (by omega)⟩)
    exact ⟨b, h1, by rw [h2]; simp⟩
  · refine ⟨false, ?_, by simp [h]⟩
    rw [if_pos]
    rw [hA.rows_eq, hA.cols_eq, hB.rows_eq, hB.cols_eq]
    by_contra hc
    exact h (by omega)

/-- **C128.**  A dense matrix full of NaN equals every matrix of its shape. -/
theorem C128_dense_nan [NanLaws F] (tol : F) {A B : Dense F} {m n : Int} {f g : Int → Int → F} (hA : A.Is m n f) (hB : B.Is m n g)
    (hn : ∀ i j, 0 ≤ i → i < m → 0 ≤ j → j < n → IsNan (f i j) ∨ IsNan (g i j)) : Flt.denseEq tol A B = .ok true := by
  obtain ⟨b, h1, h2⟩ := C128_dense_iff tol hA hB
  rw [h1, h2.mpr ⟨⟨rfl, rfl⟩, fun i j i0 i1 j0 j1 => NanLaws.lt_nan _ _ (Or.inr (NanLaws.abs_nan _ (NanLaws.sub_nan _ _ (hn i j i0 i1 j0 j1))))⟩]

/-! ## Largest and smallest elements -/

theorem maxElement_stuck (less : F → F → Bool) (a : F) (h : ∀ b, less a b = false) (l : List F) : Vec.maxElement less a l = a := by
  unfold Vec.maxElement
  induction l with
  | nil => rfl
  | cons b l ih => rw [List.foldl_cons, h b]; simpa using ih

theorem minElement_stuck (less : F → F → Bool) (a : F) (h : ∀ b, less b a = false) (l : List F) : Vec.minElement less a l = a := by
  unfold Vec.minElement
  induction l with
  | nil => rfl
  | cons b l ih => rw [List.foldl_cons, h b]; simpa using ih

theorem maxElement_skip (less : F → F → Bool) (skip : F → Prop) [DecidablePred skip] (h : ∀ a b, skip b → less a b = false) (a : F) (l : List F) :
    Vec.maxElement less a l = Vec.maxElement less a (l.filter (fun b => ¬ skip b)) := by
  unfold Vec.maxElement
  induction l generalizing a with
  | nil => rfl
  | cons b l ih =>
    by_cases hb : skip b
    · rw [List.foldl_cons, h a b hb, List.filter_cons_of_neg (by simpa using hb)]
      simpa using ih a
    · rw [List.filter_cons_of_pos (by simpa using hb), List.foldl_cons, List.foldl_cons]
      exact ih _

theorem minElement_skip (less : F → F → Bool) (skip : F → Prop) [DecidablePred skip] (h : ∀ a b, skip b → less b a = false) (a : F) (l : List F) :
    Vec.minElement less a l = Vec.minElement less a (l.filter (fun b => ¬ skip b)) := by
  unfold Vec.minElement
  induction l generalizing a with
  | nil => rfl
  | cons b l ih =>
    by_cases hb : skip b
    · rw [List.foldl_cons, h a b hb, List.filter_cons_of_neg (by simpa using hb)]
      simpa using ih a
    · rw [List.filter_cons_of_pos (by simpa using hb), List.foldl_cons, List.foldl_cons]
      exact ih _

/-- **C128.**  `Max`, `Min`, `AbsMax` and `AbsMin` of a vector that starts with NaN are this NaN, whatever follows. -/
theorem C128_max_first [NanLaws F] (a : F) (l : List F) (ha : IsNan a) :
    Flt.max (a :: l) = .ok a ∧ Flt.min (a :: l) = .ok a ∧ Flt.absMax (a :: l) = .ok (abs a) ∧ Flt.absMin (a :: l) = .ok (abs a) := by
  refine ⟨?_, ?_, ?_, ?_⟩
  · exact congrArg Except.ok (maxElement_stuck _ _ (fun b => NanLaws.lt_nan _ _ (Or.inl ha)) l)
  · exact congrArg Except.ok (minElement_stuck _ _ (fun b => NanLaws.lt_nan _ _ (Or.inr ha)) l)
  · exact congrArg (fun t : F => (Except.ok (Floats.abs t) : Res F)) (maxElement_stuck (fun a b : F => lt (Floats.abs a) (Floats.abs b)) a (fun b => NanLaws.lt_nan _ _ (Or.inl (NanLaws.abs_nan _ ha))) l)
  · exact congrArg (fun t : F => (Except.ok (Floats.abs t) : Res F)) (minElement_stuck (fun a b : F => lt (Floats.abs a) (Floats.abs b)) a (fun b => NanLaws.lt_nan _ _ (Or.inr (NanLaws.abs_nan _ ha))) l)

/-- **C128.**  A NaN anywhere else is ignored: they are those of the vector without its later NaN. -/
theorem C128_max_rest [NanLaws F] (a : F) (l : List F) :
    Flt.max (a :: l) = Flt.max (a :: l.filter (fun b => ¬ IsNan b)) ∧ Flt.min (a :: l) = Flt.min (a :: l.filter (fun b => ¬ IsNan b)) ∧
    Flt.absMax (a :: l) = Flt.absMax (a :: l.filter (fun b => ¬ IsNan b)) ∧ Flt.absMin (a :: l) = Flt.absMin (a :: l.filter (fun b => ¬ IsNan b)) := by
  refine ⟨?_, ?_, ?_, ?_⟩
  · exact congrArg Except.ok (maxElement_skip _ IsNan (fun a b hb => NanLaws.lt_nan _ _ (Or.inr hb)) a l)
  · exact congrArg Except.ok (minElement_skip _ IsNan (fun a b hb => NanLaws.lt_nan _ _ (Or.inl hb)) a l)
  · exact congrArg (fun t : F => (Except.ok (Floats.abs t) : Res F)) (maxElement_skip _ IsNan (fun a b hb => NanLaws.lt_nan _ _ (Or.inr (NanLaws.abs_nan _ hb))) a l)
  · exact congrArg (fun t : F => (Except.ok (Floats.abs t) : Res F)) (minElement_skip _ IsNan (fun a b hb => NanLaws.lt_nan _ _ (Or.inl (NanLaws.abs_nan _ hb))) a l)

/-- The order of the elements decides whether the NaN is seen. -/
example : Flt.max ([.nan, .fin 3, .fin 5] : List (Ext ℚ)) = .ok .nan ∧ Flt.max ([.fin 3, .nan, .fin 5] : List (Ext ℚ)) = .ok (.fin 5) := by decide +kernel

/-! ## EliminateZeros and Add -/

/-- **C128.**  `SparseMatrix::EliminateZeros` keeps exactly the entries whose absolute value compares greater than the tolerance; so it removes NaN. -/
theorem C128_eliminate_sparse [NanLaws F] (A : Csr F) (hA : A.WF) (tol : F) :
    ∃ B, Flt.sparseEliminateZeros A tol = .ok B ∧ B.WF ∧ B.rows = A.rows ∧ B.cols = A.cols ∧
      (∀ i, B.row i = (A.row i).filter (fun e => lt tol (abs e.2))) ∧ ∀ i, ∀ e ∈ B.row i, ¬ IsNan e.2 := by
  obtain ⟨n, rs, hn, hrs, rfl⟩ := hA.exists_rows
  have hrow : ∀ i, (Csr.ofRows n (rs.map (fun r => r.filter (fun e => lt tol (abs e.2))))).row i =
      ((Csr.ofRows n rs).row i).filter (fun e => lt tol (abs e.2)) := fun i => row_ofRows_map n n rs _ rfl i
  refine ⟨Csr.ofRows n (rs.map (fun r => r.filter (fun e => lt tol (abs e.2)))), ?_,
    Csr.wf_ofRows hn (filterRows_ok _ hrs), by simp [Csr.ofRows], rfl, hrow, ?_⟩
  · unfold Flt.sparseEliminateZeros
    rw [filterLoop_ofRows n rs (fun d => lt tol (abs d) = true)]
    simp [Csr.ofRows]
  · intro i e he hnan
    rw [hrow, List.mem_filter] at he
    rw [NanLaws.lt_nan _ _ (Or.inr (NanLaws.abs_nan _ hnan))] at he
    exact Bool.false_ne_true he.2

/-- **C128.**  `CooMatrix::EliminateZeros` and `LilMatrix::EliminateZeros` keep NaN. -/
theorem C128_eliminate_coo [DecidableEq F] [NanLaws F] (C : Coo F) (tol : F) :
    (Flt.cooEliminateZeros C tol).rows = C.rows ∧ (Flt.cooEliminateZeros C tol).cols = C.cols ∧
    (Flt.cooEliminateZeros C tol).entries.Sublist C.entries ∧
    (∀ e, (Flt.cooEliminateZeros C tol).entries.count e = if lt (abs e.2.2) tol = true then 0 else C.entries.count e) ∧
    ∀ e ∈ C.entries, IsNan e.2.2 → e ∈ (Flt.cooEliminateZeros C tol).entries := by
  unfold Flt.cooEliminateZeros
  refine ⟨rfl, rfl, List.filter_sublist, fun e => ?_, fun e he hn => ?_⟩
  · by_cases h : lt (abs e.2.2) tol = true
    · rw [if_pos h, List.count_eq_zero]
      simp [h]
    · rw [if_neg h, List.count_filter (by rw [Bool.not_eq_true] at h; simp [h])]
  · rw [List.mem_filter]
    exact ⟨he, by rw [NanLaws.lt_nan _ _ (Or.inl (NanLaws.abs_nan _ hn))]; rfl⟩

theorem C128_eliminate_lil [DecidableEq F] [NanLaws F] (L : Lil F) (tol : F) :
    (Flt.lilEliminateZeros L tol).rows = L.rows ∧ (Flt.lilEliminateZeros L tol).cols = L.cols ∧
    (Flt.lilEliminateZeros L tol).entries.length = L.entries.length ∧
    ∀ (k : Nat) (hk : k < L.entries.length) (hk' : k < (Flt.lilEliminateZeros L tol).entries.length),
      (Flt.lilEliminateZeros L tol).entries[k].Sublist L.entries[k] ∧
      (∀ e, (Flt.lilEliminateZeros L tol).entries[k].count e = if lt (abs e.2) tol = true then 0 else L.entries[k].count e) ∧
      ∀ e ∈ L.entries[k], IsNan e.2 → e ∈ (Flt.lilEliminateZeros L tol).entries[k] := by
  refine ⟨rfl, rfl, by simp [Flt.lilEliminateZeros], fun k hk hk' => ?_⟩
  have e0 : (Flt.lilEliminateZeros L tol).entries[k] = L.entries[k].filter (fun e => !lt (Floats.abs e.2) tol) := by
    simp only [Flt.lilEliminateZeros, List.getElem_map]
  rw [e0]
  refine ⟨List.filter_sublist, fun e => ?_, fun e he hn => ?_⟩
  · by_cases h : lt (abs e.2) tol = true
    · rw [if_pos h, List.count_eq_zero]
      simp [h]
    · rw [if_neg h, List.count_filter (by rw [Bool.not_eq_true] at h; simp [h])]
  · rw [List.mem_filter]
    exact ⟨he, by rw [NanLaws.lt_nan _ _ (Or.inl (NanLaws.abs_nan _ hn))]; rfl⟩

/-- **C128.**  Adding NaN to a coordinate or list matrix is stopped by `assert(val == val)`, at every place.  Anything else, infinities included, is added
as the models of the other claims say, although the comment on the assertion says "is finite". -/
theorem C128_add (C : Coo F) (L : Lil F) (i j : Int) (val : F) :
    (IsNan val → Flt.cooAdd C i j val = .error .assertFail ∧ Flt.lilAdd L i j val = .error .assertFail) ∧
    (¬ IsNan val → Flt.cooAdd C i j val = C.add i j val ∧ Flt.lilAdd L i j val = L.add i j val) := by
  constructor
  · intro h
    have e : ¬ eq val val = true := by unfold IsNan at h; rw [h]; exact Bool.false_ne_true
    unfold Flt.cooAdd Flt.lilAdd
    rw [cassert_false e]
    constructor
    · by_cases hi : i ≥ 0
      · rw [cassert_true hi, ok_bind]
        by_cases hj : j ≥ 0
        · rw [cassert_true hj, ok_bind]; rfl
        · rw [cassert_false hj]; rfl
      · rw [cassert_false hi]; rfl
    · by_cases hi : i ≥ 0
      · rw [cassert_true hi, ok_bind]
        by_cases hj : j ≥ 0
        · rw [cassert_true hj, ok_bind]; rfl
        · rw [cassert_false hj]; rfl
      · rw [cassert_false hi]; rfl
  · intro h
    have e : eq val val = true := by unfold IsNan at h; simpa using h
    unfold Flt.cooAdd Flt.lilAdd Coo.add Lil.add
    rw [cassert_true e]
    exact ⟨rfl, rfl⟩

/-- An infinity is accepted. -/
example : (Flt.cooAdd (⟨2, 2, true, []⟩ : Coo (Ext ℚ)) 1 1 (.inf true)).map (fun C => C.entries) = .ok [(1, 1, .inf true)] := by decide +kernel

/-! ## Sums and products -/

theorem foldl_nan [NanLaws F] (l : List F) (s : F) (h : IsNan s ∨ ∃ a ∈ l, IsNan a) : IsNan (l.foldl (fun s a => s + a) s) := by
  induction l generalizing s with
  | nil =>
    obtain h | ⟨a, h, -⟩ := h
    · exact h
    · cases h
  | cons b l ih =>
    rw [List.foldl_cons]
    apply ih
    obtain h | ⟨a, h, h'⟩ := h
    · exact Or.inl (NanLaws.add_nan _ _ (Or.inl h))
    · rw [List.mem_cons] at h
      obtain rfl | h := h
      · exact Or.inl (NanLaws.add_nan _ _ (Or.inr h'))
      · exact Or.inr ⟨a, h, h'⟩

theorem addUp_nan [NanLaws F] (l : List F) (h : ∃ a ∈ l, IsNan a) : IsNan (addUp l) := foldl_nan l 0 (Or.inr h)

/-- **C128.**  `Mult` of a sparse matrix: a NaN in the argument reaches every row with a stored entry in its column, even if that entry is zero; a NaN
among the entries reaches its row; other rows do not depend on it. -/
theorem C128_mult [NanLaws F] (A : Csr F) (hA : A.WF) (x y : List F) (hx : (x.length : Int) = A.cols) (hy : (y.length : Int) = A.rows) :
    ∃ y', A.mult x y = .ok y' ∧ (y'.length : Int) = A.rows ∧
      (∀ i, 0 ≤ i → i < A.rows → (∃ e ∈ A.row i, IsNan e.2 ∨ IsNan (vecAt x e.1)) → IsNan (vecAt y' i)) ∧
      ∀ (x' : List F) (z : List F), (x'.length : Int) = A.cols → A.mult x' y = .ok z →
        ∀ i, 0 ≤ i → i < A.rows → (∀ e ∈ A.row i, vecAt x' e.1 = vecAt x e.1) → vecAt z i = vecAt y' i := by
  obtain ⟨y', h1, h2⟩ := C103_mult A hA x y hx hy
  refine ⟨y', h1, h2.length_eq, fun i i0 i1 hn => ?_, fun x' z hx' hz i i0 i1 hn => ?_⟩
  · rw [h2.vecAt_eq i0 i1]
    apply addUp_nan
    obtain ⟨e, he, hn⟩ := hn
    exact ⟨_, List.mem_map.mpr ⟨e, he, rfl⟩, NanLaws.mul_nan _ _ hn⟩
  · obtain ⟨z', h3, h4⟩ := C103_mult A hA x' y hx' hy
    rw [hz] at h3
    obtain rfl : z = z' := by simpa using h3
    rw [h2.vecAt_eq i0 i1, h4.vecAt_eq i0 i1]
    congr 1
    apply List.map_congr_left
    intro e he
    rw [hn e he]

/-- A stored zero passes a NaN on. -/
example : (⟨2, 2, [0, 1, 2], [0, 1], [.fin 0, .fin 1]⟩ : Csr (Ext ℚ)).mult [.nan, .fin 5] [.fin 0, .fin 0] = .ok [.nan, .fin 5] := by decide +kernel

theorem inner_nan [NanLaws F] {n : Nat} {x y : List F} (hx : x.length = n) (hy : y.length = n)
    (h : ∃ i : Int, 0 ≤ i ∧ i < n ∧ (IsNan (vecAt x i) ∨ IsNan (vecAt y i))) : ∃ d, Vec.inner x y = .ok d ∧ IsNan d := by
  refine ⟨_, (C103_vector x y).2 (by omega), ?_⟩
  apply addUp_nan
  obtain ⟨i, i0, i1, hn⟩ := h
  refine ⟨vecAt x i * vecAt y i, ?_, NanLaws.mul_nan _ _ hn⟩
  obtain ⟨k, rfl⟩ : ∃ k : Nat, i = k := ⟨i.toNat, by omega⟩
  have e : ∀ z : List F, z.length = n → ∃ h : k < z.length, vecAt z (k : Int) = z[k] := by
    intro z hz
    refine ⟨by omega, ?_⟩
    have := (vecIs_vecAt z).get_eq (k : Int) (by omega) (by omega)
    have h2 : rd z (k : Int) = .ok z[k] := rd_nat (by omega)
    rw [this] at h2
    simpa using h2
  obtain ⟨k1, e1⟩ := e x hx
  obtain ⟨k2, e2⟩ := e y hy
  rw [e1, e2]
  refine List.mem_iff_getElem.mpr ⟨k, by simp; omega, by simp⟩

theorem inner_zero [ZeroLaws F] {x y : List F} (h : y.length = x.length) (hx : ∀ a ∈ x, IsZero a) (hy : ∀ a ∈ y, IsZero a) :
    ∃ d, Vec.inner x y = .ok d ∧ IsZero d := by
  unfold Vec.inner
  rw [cassert_true h, ok_bind]
  refine ⟨_, rfl, ?_⟩
  have : ∀ (l : List (F × F)) (s : F), IsZero s → (∀ p ∈ l, IsZero p.1 ∧ IsZero p.2) → IsZero (l.foldl (fun s p => s + p.1 * p.2) s) := by
    intro l
    induction l with
    | nil => intro s hs _; exact hs
    | cons p l ih =>
      intro s hs hp
      rw [List.foldl_cons]
      obtain ⟨p1, p2⟩ := hp p (by simp)
      exact ih _ (ZeroLaws.add _ _ hs (ZeroLaws.mul _ _ (Or.inl ⟨p1, ZeroLaws.fin _ p2⟩))) (fun q hq => hp q (by simp [hq]))
  exact this _ _ ZeroLaws.zero (fun p hp => ⟨hx _ (List.of_mem_zip hp).1, hy _ (List.of_mem_zip hp).2⟩)

/-! ## Solvers -/

/-- A square operator that accepts every vector of its size. -/
structure Op.Runs (A : Op F) (n : Nat) : Prop where
  rows_eq : A.rows = n
  cols_eq : A.cols = n
  runs : ∀ x y : List F, x.length = n → y.length = n → ∃ z, A.mult x y = .ok z ∧ z.length = n

theorem Op.Runs.multResize {A : Op F} {n : Nat} (h : A.Runs n) (x y : List F) (hx : x.length = n) :
    ∃ y' z, y'.length = n ∧ A.mult x y' = .ok z ∧ z.length = n ∧ A.multResize x y = .ok z := by
  unfold Op.multResize
  obtain ⟨y', e, l⟩ := setSize_length' y (show 0 ≤ A.rows by rw [h.rows_eq]; omega) (0 : F)
  rw [h.rows_eq] at l
  have l' : y'.length = n := by exact_mod_cast l
  obtain ⟨z, e2, hz⟩ := h.runs x y' hx l'
  exact ⟨y', z, l', e2, hz, by rw [e, ok_bind, e2]⟩

/-- A sparse matrix of floating-point numbers is such an operator. -/
theorem Csr.runs (A : Csr F) (hA : A.WF) (n : Nat) (hr : A.rows = n) (hc : A.cols = n) : A.toOp.Runs n where
  rows_eq := hr
  cols_eq := hc
  runs x y hx hy := by
    obtain ⟨y', h1, h2⟩ := C103_mult A hA x y (by omega) (by omega)
    exact ⟨y', h1, by have := h2.length_eq; omega⟩

/-- Some element is NaN. -/
def SomeNan (x : List F) : Prop := ∃ i : Int, 0 ≤ i ∧ i < x.length ∧ IsNan (vecAt x i)

/-- Every element is NaN. -/
def AllNan (x : List F) : Prop := ∀ i : Int, 0 ≤ i → i < x.length → IsNan (vecAt x i)

theorem update_fn {n : Nat} (f : F → F → F) {x y : List F} (hx : x.length = n) (hy : y.length = n) :
    Vec.update f x y = .ok (vecFn n (fun i => f (vecAt x i) (vecAt y i))) := by
  have := Vec.update_vecFn f n (vecAt x) (vecAt y)
  rw [← hx, ← eq_vecFn_vecAt, hx, ← hy, ← eq_vecFn_vecAt] at this
  rw [this, hy]

theorem update2_fn {n : Nat} (f : F → F → F) {x y : List F} (hx : x.length = n) (hy : y.length = n) :
    Vec.update2 n f x y = .ok (vecFn n (fun i => f (vecAt x i) (vecAt y i))) := by
  have := Vec.update2_vecFn f n (vecAt x) (vecAt y)
  have e1 := eq_vecFn_vecAt x
  have e2 := eq_vecFn_vecAt y
  rw [hx] at e1
  rw [hy] at e2
  rw [← e1, ← e2] at this
  exact this

theorem update3_fn {n : Nat} (f : F → F → F → F) {x y z : List F} (hx : x.length = n) (hy : y.length = n) (hz : z.length = n) :
    Vec.update3 n f x y z = .ok (vecFn n (fun i => f (vecAt x i) (vecAt y i) (vecAt z i))) := by
  have := Vec.update3_vecFn f n (vecAt x) (vecAt y) (vecAt z)
  have e1 := eq_vecFn_vecAt x
  have e2 := eq_vecFn_vecAt y
  have e3 := eq_vecFn_vecAt z
  rw [hx] at e1
  rw [hy] at e2
  rw [hz] at e3
  rw [← e1, ← e2, ← e3] at this
  exact this

theorem vecAt_fn {n : Nat} (f : Int → F) {i : Int} (i0 : 0 ≤ i) (i1 : i < n) : vecAt (vecFn n f) i = f i := (is_vecFn n f).vecAt_eq i0 i1

theorem SomeNan.inner [NanLaws F] {n : Nat} {x y : List F} (hx : x.length = n) (hy : y.length = n) (h : SomeNan x ∨ SomeNan y) :
    ∃ d, Vec.inner x y = .ok d ∧ IsNan d := by
  refine inner_nan hx hy ?_
  obtain ⟨i, i0, i1, h⟩ | ⟨i, i0, i1, h⟩ := h
  · exact ⟨i, i0, by omega, Or.inl h⟩
  · exact ⟨i, i0, by omega, Or.inr h⟩

theorem SomeNan.self [NanLaws F] {x : List F} (h : SomeNan x) : ∃ d, Vec.inner x x = .ok d ∧ IsNan d := SomeNan.inner rfl rfl (Or.inl h)

/-- A preconditioner that runs and does not lose NaN (in particular none at all). -/
def Pcg.KeepsNan (S : Pcg F) (n : Nat) : Prop :=
  ∀ M, S.M = some M → M.Runs n ∧ ∀ r y z : List F, r.length = n → SomeNan r → M.mult r y = .ok z → SomeNan z

theorem Pcg.KeepsNan.precond {S : Pcg F} {n : Nat} (h : S.KeepsNan n) (r z : List F) (hr : r.length = n) :
    ∃ z', S.precond r z = .ok z' ∧ z'.length = n ∧ (SomeNan r → SomeNan z') := by
  unfold Pcg.precond
  cases e : S.M with
  | none => exact ⟨r, rfl, hr, id⟩
  | some M =>
    obtain ⟨h1, h2⟩ := h M e
    obtain ⟨y', z', hy', e1, hz', e2⟩ := h1.multResize r z hr
    exact ⟨z', e2, hz', fun hn => h2 r y' z' hr hn e1⟩

/-- **C128.**  PCG whose initial residual `b - A x` has a NaN throws "not positive definite", whatever the matrix: no result is returned. -/
theorem C128_pcg_nan [NanLaws F] (S : Pcg F) (n : Nat) (hA : S.A.Runs n) (hM : S.KeepsNan n) (hdot : S.dot = Vec.inner) (low : F) (b x : List F)
    (hb : b.length = n) (hx : x.length = n) (w : PcgState F)
    (hn : ∀ y z, S.A.mult x y = .ok z → ∃ i : Int, 0 ≤ i ∧ i < n ∧ (IsNan (vecAt b i) ∨ IsNan (vecAt z i))) :
    S.multF low b x w = .error .threw := by
  obtain ⟨y', Ap, hy', e1, hAp, e2⟩ := hA.multResize x w.Ap hx
  obtain ⟨i, i0, i1, hi⟩ := hn y' Ap e1
  have hr : SomeNan (vecFn n (fun i => vecAt b i - vecAt Ap i)) :=
    ⟨i, i0, by simpa using i1, by rw [vecAt_fn _ i0 i1]; exact NanLaws.sub_nan _ _ hi⟩
  obtain ⟨z, e3, hz, hzn⟩ := hM.precond (vecFn n (fun i => vecAt b i - vecAt Ap i)) w.z (by simp)
  have hz' := hzn hr
  obtain ⟨d, e4, hd⟩ := SomeNan.inner hz (show (vecFn n (fun i => vecAt b i - vecAt Ap i)).length = n by simp) (Or.inl hz')
  obtain ⟨d', e4', hd'⟩ := SomeNan.inner (show (vecFn n (fun i => vecAt b i - vecAt Ap i)).length = n by simp) hz (Or.inr hz')
  have hs : S.stepF low (Flt.stdMax (d * S.relTol * S.relTol) (S.absTol * S.absTol))
      ⟨x, vecFn n (fun i => vecAt b i - vecAt Ap i), z, z, Ap, 0 + 1⟩ = .error .threw := by
    unfold Pcg.stepF
    obtain ⟨-, Ap', -, -, hAp', e5⟩ := hA.multResize z Ap hz
    obtain ⟨pAp, e6, hp⟩ := SomeNan.inner hz hAp' (Or.inl hz')
    simp only [e5, ok_bind, hdot, e6, e4']
    rw [show cverify (lt low pAp = true) = .error .threw by
      rw [NanLaws.lt_nan _ _ (Or.inr hp)]; rfl]
    rfl
  unfold Pcg.multF Pcg.startF
  rw [cassert_true (by rw [hA.rows_eq]; exact_mod_cast hx), ok_bind, cassert_true (by rw [hA.rows_eq]; exact_mod_cast hb), ok_bind]
  simp only [e2, ok_bind, update_fn _ hb hAp, e3, hdot, e4]
  rw [NanLaws.lt_nan d _ (Or.inl hd)]
  simp only [Bool.false_eq_true, if_false]
  cases (S.maxIter - 2).toNat with
  | zero => unfold Pcg.loopF; rw [hs]; rfl
  | succ k => unfold Pcg.loopF; rw [hs]; rfl

/-- **C128.**  In particular if the right-hand side has a NaN. -/
theorem C128_pcg_rhs [NanLaws F] (S : Pcg F) (n : Nat) (hA : S.A.Runs n) (hM : S.KeepsNan n) (hdot : S.dot = Vec.inner) (low : F) (b x : List F)
    (hb : b.length = n) (hx : x.length = n) (w : PcgState F) (hn : SomeNan b) : S.multF low b x w = .error .threw := by
  obtain ⟨i, i0, i1, hi⟩ := hn
  exact C128_pcg_nan S n hA hM hdot low b x hb hx w (fun _ _ _ => ⟨i, i0, by omega, Or.inl hi⟩)

/-- **C128.**  Or if the matrix has a NaN among its stored entries, or the first guess where a stored entry meets it. -/
theorem C128_pcg_matrix [NanLaws F] (S : Pcg F) (n : Nat) (A : Csr F) (hA : A.WF) (hr : A.rows = n) (hc : A.cols = n) (hS : S.A = A.toOp)
    (hM : S.KeepsNan n) (hdot : S.dot = Vec.inner) (low : F) (b x : List F) (hb : b.length = n) (hx : x.length = n) (w : PcgState F) (i : Int)
    (i0 : 0 ≤ i) (i1 : i < n) (hn : ∃ e ∈ A.row i, IsNan e.2 ∨ IsNan (vecAt x e.1)) : S.multF low b x w = .error .threw := by
  refine C128_pcg_nan S n (by rw [hS]; exact A.runs hA n hr hc) hM hdot low b x hb hx w (fun y z e => ⟨i, i0, i1, Or.inr ?_⟩)
  rw [hS] at e
  have e' : A.mult x y = .ok z := e
  have hy : (y.length : Int) = A.rows := by
    by_contra hne
    unfold Csr.mult at e'
    first
      | (rw [cassert_true (by omega), ok_bind, cassert_false (by omega)] at e'; cases e')
      | (rw [cassert_false (by omega)] at e'; cases e')
      | (rw [cassert_false (fun h => hne (by omega))] at e'; cases e')
  obtain ⟨y', h1, -, h2, -⟩ := C128_mult A hA x y (by omega) hy
  rw [e'] at h1
  obtain rfl : z = y' := by simpa using h1
  exact h2 i i0 (by omega) hn

theorem allNan_fn {n : Nat} {f : Int → F} (h : ∀ i : Int, 0 ≤ i → i < n → IsNan (f i)) : AllNan (vecFn n f) := by
  intro i i0 i1
  have i2 : i < n := by simpa using i1
  rw [vecAt_fn _ i0 i2]
  exact h i i0 i2

theorem AllNan.some {x : List F} {n : Nat} (h : AllNan x) (hx : x.length = n) (hn : 1 ≤ n) : SomeNan x :=
  ⟨0, le_refl _, by omega, h 0 (le_refl _) (by omega)⟩

theorem mem_fn {n : Nat} {f : Int → F} {a : F} (h : a ∈ vecFn n f) : ∃ i : Int, 0 ≤ i ∧ i < n ∧ a = f i := by
  rw [vecFn_iota, List.mem_map] at h
  obtain ⟨i, hi, rfl⟩ := h
  obtain ⟨k, hk, rfl⟩ : ∃ a < n, (a : Int) = i := by simpa [iota] using hi
  exact ⟨k, by omega, by omega, rfl⟩

/-- **C128.**  CG started at a solution (residual zero) with the absolute tolerance 0: the step length is `0 / 0`.  With `max_iter` at most 2 every element
of `x` is replaced by NaN, without any error; with a larger `max_iter` the call throws "not positive definite". -/
theorem C128_pcg_solved [NanLaws F] [ZeroLaws F] (S : Pcg F) (n : Nat) (hn : 1 ≤ n) (hA : S.A.Runs n)
    (hA0 : ∀ u y z : List F, u.length = n → (∀ a ∈ u, IsZero a) → S.A.mult u y = .ok z → ∀ a ∈ z, IsZero a) (hM : S.M = none)
    (hdot : S.dot = Vec.inner) (low : F) (hlow : ∀ a : F, IsZero a → lt low a = true) (hrel : IsFin S.relTol) (habs : IsZero S.absTol) (b x : List F)
    (hb : b.length = n) (hx : x.length = n) (w : PcgState F)
    (hr : ∀ y z, S.A.mult x y = .ok z → ∀ i : Int, 0 ≤ i → i < n → IsZero (vecAt b i - vecAt z i)) :
    (S.maxIter ≤ 2 → ∃ st, S.multF low b x w = .ok (2, st) ∧ st.x.length = n ∧ AllNan st.x) ∧
    (2 < S.maxIter → S.multF low b x w = .error .threw) := by
  obtain ⟨y', Ap, hy', e1, hAp, e2⟩ := hA.multResize x w.Ap hx
  have hr0 := hr y' Ap e1
  set r := vecFn n (fun i => vecAt b i - vecAt Ap i) with hrdef
  have hrl : r.length = n := by simp [hrdef]
  have hrz : ∀ a ∈ r, IsZero a := by
    intro a ha
    obtain ⟨i, i0, i1, rfl⟩ := mem_fn ha
    exact hr0 i i0 i1
  obtain ⟨d, e4, hd⟩ := inner_zero (show r.length = r.length from rfl) hrz hrz
  set tol := Flt.stdMax (d * S.relTol * S.relTol) (S.absTol * S.absTol) with htol
  have htz : IsZero tol := by
    rw [htol]
    unfold Flt.stdMax
    split
    · exact ZeroLaws.mul _ _ (Or.inl ⟨habs, ZeroLaws.fin _ habs⟩)
    · exact ZeroLaws.mul _ _ (Or.inl ⟨ZeroLaws.mul _ _ (Or.inl ⟨hd, hrel⟩), hrel⟩)
  obtain ⟨y2, Ap', hy2, e5, hAp', e6⟩ := hA.multResize r Ap hrl
  have hApz := hA0 r y2 Ap' hrl hrz e5
  obtain ⟨pAp, e7, hp⟩ := inner_zero (show Ap'.length = r.length by omega) hrz hApz
  have hal : IsNan (d / pAp) := ZeroLaws.div _ _ hd hp
  set r1 := vecFn n (fun i => vecAt r i - d / pAp * vecAt Ap' i) with hr1def
  have hr1l : r1.length = n := by simp [hr1def]
  have hr1n : AllNan r1 := allNan_fn (fun i _ _ => NanLaws.sub_nan _ _ (Or.inr (NanLaws.mul_nan _ _ (Or.inl hal))))
  obtain ⟨d1, e8, hd1⟩ := SomeNan.inner hr1l hr1l (Or.inl (hr1n.some hr1l hn))
  set x1 := vecFn n (fun i => vecAt x i + d / pAp * vecAt r i) with hx1def
  have hx1n : AllNan x1 := allNan_fn (fun i _ _ => NanLaws.add_nan _ _ (Or.inr (NanLaws.mul_nan _ _ (Or.inl hal))))
  set p1 := vecFn n (fun i => vecAt (r.map (fun u => u * (d1 / d))) i + vecAt r1 i) with hp1def
  have hp1l : p1.length = n := by simp [hp1def]
  have hp1n : AllNan p1 := allNan_fn (fun i i0 i1 => NanLaws.add_nan _ _ (Or.inr (hr1n i i0 (by omega))))
  have hprec : ∀ u z : List F, S.precond u z = .ok u := by intro u z; unfold Pcg.precond; rw [hM]
  have hs : S.stepF low tol ⟨x, r, r, r, Ap, 0 + 1⟩ = .ok (false, ⟨x1, r1, p1, r1, Ap', 0 + 1 + 1⟩) := by
    unfold Pcg.stepF
    simp only [e6, ok_bind, hdot, e7, e4]
    rw [show cverify (lt low pAp = true) = .ok () by rw [hlow _ hp]; rfl, ok_bind, update_fn _ hx hrl, ok_bind, update_fn _ hrl hAp', ok_bind, hprec,
      ok_bind, e8, ok_bind, NanLaws.lt_nan d1 _ (Or.inl hd1)]
    simp only [Bool.false_eq_true, if_false]
    rw [update_fn _ (show (r.map (fun u => u * (d1 / d))).length = n by simpa using hrl) hr1l, ok_bind]
  have hs2 : ∀ c, S.stepF low tol ⟨x1, r1, p1, r1, Ap', c⟩ = .error .threw := by
    intro c
    unfold Pcg.stepF
    obtain ⟨-, Ap2, -, -, hAp2, e9⟩ := hA.multResize p1 Ap' hp1l
    obtain ⟨pAp2, e10, hp2⟩ := SomeNan.inner hp1l hAp2 (Or.inl (hp1n.some hp1l hn))
    simp only [e9, ok_bind, hdot, e10, e8]
    rw [show cverify (lt low pAp2 = true) = .error .threw by
      rw [NanLaws.lt_nan _ _ (Or.inr hp2)]; rfl]
    rfl
  have hm : S.multF low b x w = S.loopF low tol (S.maxIter - 2).toNat 1 ⟨x, r, r, r, Ap, 0 + 1⟩ := by
    unfold Pcg.multF Pcg.startF
    rw [cassert_true (by rw [hA.rows_eq]; exact_mod_cast hx), ok_bind, cassert_true (by rw [hA.rows_eq]; exact_mod_cast hb), ok_bind]
    simp only [e2, ok_bind, update_fn _ hb hAp, ← hrdef, hprec, hdot, e4, ← htol]
    rw [ZeroLaws.lt d tol hd htz]
    rfl
  rw [hm]
  constructor
  · intro h2
    rw [show (S.maxIter - 2).toNat = 0 by omega]
    unfold Pcg.loopF
    rw [hs, ok_bind]
    exact ⟨_, rfl, by simp [hx1def], hx1n⟩
  · intro h2
    obtain ⟨k, hk⟩ : ∃ k, (S.maxIter - 2).toNat = k + 1 := ⟨(S.maxIter - 3).toNat, by omega⟩
    rw [hk]
    unfold Pcg.loopF
    rw [hs, ok_bind]
    simp only [Bool.false_eq_true, if_false]
    cases k with
    | zero => unfold Pcg.loopF; rw [hs2]; rfl
    | succ k => unfold Pcg.loopF; rw [hs2]; rfl

/-! ### MINRES -/

/-- The sizes of the vectors of a MINRES solver. -/
structure MinresState.Size (s : MinresState F) (n : Nat) : Prop where
  w0 : s.w0.length = n
  w1 : s.w1.length = n
  v0 : s.v0.length = n
  v1 : s.v1.length = n

theorem minres_step_nan [NanLaws F] (S : Minres F) (n : Nat) (hn : 1 ≤ n) (hA : S.A.Runs n) (hdot : S.dot = Vec.inner)
    (hsq : ∀ a : F, IsNan a → IsNan (S.sqrt a)) (tol : F) (s : MinresState F) (hs : s.Size n) (hx : s.x.length = n) (hb : IsNan s.beta) :
    ∃ t, S.stepF tol s = .ok (false, t) ∧ t.Size n ∧ t.x.length = n ∧ AllNan t.x ∧ IsNan t.beta := by
  have hv1l : (s.v1.map (fun u => u / s.beta)).length = n := by simpa using hs.v1
  have hv1 : AllNan (s.v1.map (fun u => u / s.beta)) := by
    have e := eq_vecFn_vecAt s.v1
    rw [hs.v1] at e
    rw [e, map_vecFn]
    exact allNan_fn (fun i _ _ => NanLaws.div_nan _ _ (Or.inr hb))
  obtain ⟨-, q, -, -, hq, e1⟩ := hA.multResize _ s.q hv1l
  obtain ⟨al, e2, hal⟩ := SomeNan.inner hv1l hq (Or.inl (hv1.some hv1l hn))
  have hv0 : AllNan (vecFn n (fun i => vecAt q i - s.beta * vecAt s.v0 i - al * vecAt (s.v1.map (fun u => u / s.beta)) i)) :=
    allNan_fn (fun i _ _ => NanLaws.sub_nan _ _ (Or.inr (NanLaws.mul_nan _ _ (Or.inl hal))))
  obtain ⟨d, e3, hd⟩ := SomeNan.self (hv0.some (length_vecFn n _) hn)
  have hbe := hsq d hd
  have hrho : IsNan (S.sqrt ((s.gamma2 * al - s.gamma * s.sigma2 * s.beta) * (s.gamma2 * al - s.gamma * s.sigma2 * s.beta) + S.sqrt d * S.sqrt d)) :=
    hsq _ (NanLaws.add_nan _ _ (Or.inr (NanLaws.mul_nan _ _ (Or.inl hbe))))
  unfold Minres.stepF Flt.divVec
  rw [cassert_true (NanLaws.eq_nan _ _ (Or.inl hb))]
  simp only [ok_bind, e1, hdot, e2, hA.cols_eq, update3_fn _ hs.v0 hq hv1l, e3, update3_fn _ hs.w0 hv1l hs.w1]
  rw [update2_fn _ hx (by simp), ok_bind]
  refine ⟨_, congrArg (fun c => Except.ok (c, _)) (NanLaws.lt_nan _ _ (Or.inl (NanLaws.abs_nan _ (NanLaws.mul_nan _ _ (Or.inl
    (NanLaws.neg_nan _ (NanLaws.div_nan _ _ (Or.inl hbe)))))))), ⟨by simp, hs.w1, by simp, hv1l⟩, by simp, ?_, hbe⟩
  refine allNan_fn (fun i _ _ => NanLaws.add_nan _ _ (Or.inr (NanLaws.mul_nan _ _ (Or.inl (NanLaws.mul_nan _ _ (Or.inl ?_))))))
  exact NanLaws.div_nan _ _ (Or.inr hrho)

theorem minres_loop_nan [NanLaws F] (S : Minres F) (n : Nat) (hn : 1 ≤ n) (hA : S.A.Runs n) (hdot : S.dot = Vec.inner)
    (hsq : ∀ a : F, IsNan a → IsNan (S.sqrt a)) (tol : F) (fuel : Nat) (k : Int) (s : MinresState F) (hs : s.Size n) (hx : s.x.length = n)
    (hb : IsNan s.beta) (hxn : 1 ≤ fuel ∨ AllNan s.x) :
    ∃ t, S.loopF tol fuel k s = .ok (k + fuel, t) ∧ t.x.length = n ∧ AllNan t.x := by
  induction fuel generalizing k s with
  | zero =>
    obtain h | h := hxn
    · omega
    · exact ⟨s, by simp [Minres.loopF], hx, h⟩
  | succ f ih =>
    obtain ⟨t, e, h1, h2, h3, h4⟩ := minres_step_nan S n hn hA hdot hsq tol s hs hx hb
    unfold Minres.loopF
    rw [e, ok_bind]
    simp only [Bool.false_eq_true, if_false]
    obtain ⟨u, e', h5, h6⟩ := ih (k + 1) (Minres.swapVecs t) ⟨h1.w1, h1.w0, h1.v1, h1.v0⟩ h2 h4 (Or.inr h3)
    exact ⟨u, by rw [e']; congr 2; push_cast; omega, h5, h6⟩

/-- **C128.**  MINRES whose initial residual has a NaN reports nothing: it makes `max_iter` iterations and returns a vector of which every element is
NaN. -/
theorem C128_minres_nan [NanLaws F] (S : Minres F) (n : Nat) (hA : S.A.Runs n) (hdot : S.dot = Vec.inner) (hsq : ∀ a : F, IsNan a → IsNan (S.sqrt a))
    (b x : List F) (hb : b.length = n) (hx : x.length = n) (w : MinresState F) (hw : w.Size n) (hm : 1 ≤ S.maxIter)
    (hnan : ∀ y z, S.A.mult x y = .ok z → ∃ i : Int, 0 ≤ i ∧ i < n ∧ (IsNan (vecAt b i) ∨ IsNan (vecAt z i))) :
    ∃ st, S.multF b x w = .ok (S.maxIter + 1, st) ∧ st.x.length = n ∧ AllNan st.x := by
  obtain ⟨y', q, hy', e1, hq, e2⟩ := hA.multResize x w.q hx
  obtain ⟨i, i0, i1, hi⟩ := hnan y' q e1
  have hn : 1 ≤ n := by omega
  have hv : SomeNan (vecFn n (fun i => vecAt b i - vecAt q i)) := ⟨i, i0, by simpa using i1, by rw [vecAt_fn _ i0 i1]; exact NanLaws.sub_nan _ _ hi⟩
  obtain ⟨d, e3, hd⟩ := SomeNan.self hv
  unfold Minres.multF Minres.startF
  rw [cassert_true (by rw [hA.rows_eq]; exact_mod_cast hx), ok_bind, cassert_true (by rw [hA.rows_eq]; exact_mod_cast hb), ok_bind]
  simp only [e2, ok_bind, update_fn _ hb hq, hdot, e3]
  obtain ⟨t, e4, h1, h2⟩ := minres_loop_nan S n hn hA hdot hsq (Flt.stdMax (S.sqrt d * S.relTol * S.relTol) (S.absTol * S.absTol)) S.maxIter.toNat 1
    ⟨x, List.replicate w.w0.length 0, List.replicate w.w1.length 0, List.replicate w.v0.length 0, vecFn n (fun i => vecAt b i - vecAt q i), q, S.sqrt d,
      S.sqrt d, 1, 1, 0, 0, 1⟩ ⟨by simpa using hw.w0, by simpa using hw.w1, by simpa using hw.v0, by simp⟩ hx (hsq d hd) (Or.inl (by omega))
  exact ⟨t, by rw [e4]; congr 2; omega, h1, h2⟩

/-! ### PMINRES -/

/-- The sizes of the vectors of a PMINRES solver. -/
structure PminresState.Size (s : PminresState F) (n : Nat) : Prop where
  w0 : s.w0.length = n
  w1 : s.w1.length = n
  v0 : s.v0.length = n
  v1 : s.v1.length = n
  u1 : s.u1.length = n
  q : s.q.length = n

theorem pminres_step_nan [NanLaws F] (S : Minres F) (M : Op F) (n : Nat) (hn : 1 ≤ n) (hA : S.A.Runs n) (hM : M.Runs n) (hdot : S.dot = Vec.inner)
    (hsq : ∀ a : F, IsNan a → IsNan (S.sqrt a)) (tol : F) (s : PminresState F) (hs : s.Size n) (hx : s.x.length = n) (hb : IsNan s.beta) :
    ∃ t, Pminres.stepF S M tol s = .ok (false, t) ∧ t.Size n ∧ t.x.length = n ∧ AllNan t.x ∧ IsNan t.beta := by
  have hv1l : (s.v1.map (fun u => u / s.beta)).length = n := by simpa using hs.v1
  have hu1l : (s.u1.map (fun u => u / s.beta)).length = n := by simpa using hs.u1
  have hu1 : AllNan (s.u1.map (fun u => u / s.beta)) := by
    have e := eq_vecFn_vecAt s.u1
    rw [hs.u1] at e
    rw [e, map_vecFn]
    exact allNan_fn (fun i _ _ => NanLaws.div_nan _ _ (Or.inr hb))
  obtain ⟨-, q, -, -, hq, e1⟩ := hA.multResize _ s.q hu1l
  obtain ⟨al, e2, hal⟩ := SomeNan.inner hu1l hq (Or.inl (hu1.some hu1l hn))
  have hv0 : AllNan (vecFn n (fun i => vecAt q i - s.beta * vecAt s.v0 i - al * vecAt (s.v1.map (fun u => u / s.beta)) i)) :=
    allNan_fn (fun i _ _ => NanLaws.sub_nan _ _ (Or.inr (NanLaws.mul_nan _ _ (Or.inl hal))))
  obtain ⟨-, q', -, -, hq', e1'⟩ := hM.multResize
    (vecFn n (fun i => vecAt q i - s.beta * vecAt s.v0 i - al * vecAt (s.v1.map (fun u => u / s.beta)) i)) q (by simp)
  obtain ⟨d, e3, hd⟩ := SomeNan.inner (by simp) hq' (Or.inl (hv0.some (by simp) hn))
  have hbe := hsq d hd
  have hrho : IsNan (S.sqrt ((s.gamma2 * al - s.gamma * s.sigma2 * s.beta) * (s.gamma2 * al - s.gamma * s.sigma2 * s.beta) + S.sqrt d * S.sqrt d)) :=
    hsq _ (NanLaws.add_nan _ _ (Or.inr (NanLaws.mul_nan _ _ (Or.inl hbe))))
  unfold Pminres.stepF Flt.divVec
  rw [cassert_true (NanLaws.eq_nan _ _ (Or.inl hb))]
  simp only [ok_bind, e1, hdot, e2, hA.cols_eq, update3_fn _ hs.v0 hq hv1l, e1', e3, update3_fn _ hs.w0 hu1l hs.w1]
  rw [update2_fn _ hx (by simp), ok_bind]
  refine ⟨_, congrArg (fun c => Except.ok (c, _)) (NanLaws.lt_nan _ _ (Or.inl (NanLaws.abs_nan _ (NanLaws.mul_nan _ _ (Or.inl
    (NanLaws.neg_nan _ (NanLaws.div_nan _ _ (Or.inl hbe)))))))), ⟨by simp, hs.w1, by simp, hv1l, hu1l, hq'⟩, by simp, ?_, hbe⟩
  refine allNan_fn (fun i _ _ => NanLaws.add_nan _ _ (Or.inr (NanLaws.mul_nan _ _ (Or.inl (NanLaws.mul_nan _ _ (Or.inl ?_))))))
  exact NanLaws.div_nan _ _ (Or.inr hrho)

theorem pminres_loop_nan [NanLaws F] (S : Minres F) (M : Op F) (n : Nat) (hn : 1 ≤ n) (hA : S.A.Runs n) (hM : M.Runs n) (hdot : S.dot = Vec.inner)
    (hsq : ∀ a : F, IsNan a → IsNan (S.sqrt a)) (tol : F) (fuel : Nat) (k : Int) (s : PminresState F) (hs : s.Size n) (hx : s.x.length = n)
    (hb : IsNan s.beta) (hxn : 1 ≤ fuel ∨ AllNan s.x) :
    ∃ t, Pminres.loopF S M tol fuel k s = .ok (k + fuel, t) ∧ t.x.length = n ∧ AllNan t.x := by
  induction fuel generalizing k s with
  | zero =>
    obtain h | h := hxn
    · omega
    · exact ⟨s, by simp [Pminres.loopF], hx, h⟩
  | succ f ih =>
    obtain ⟨t, e, h1, h2, h3, h4⟩ := pminres_step_nan S M n hn hA hM hdot hsq tol s hs hx hb
    unfold Pminres.loopF
    rw [e, ok_bind]
    simp only [Bool.false_eq_true, if_false]
    obtain ⟨u, e', h5, h6⟩ := ih (k + 1) (Pminres.swapVecs t) ⟨h1.w1, h1.w0, h1.v1, h1.v0, h1.q, h1.u1⟩ h2 h4 (Or.inr h3)
    exact ⟨u, by rw [e']; congr 2; push_cast; omega, h5, h6⟩

/-- **C128.**  PMINRES likewise, with any preconditioner; and also, without any NaN in the input, if the square root of the first inner product is NaN,
as it is when the preconditioner is not positive definite and this inner product is negative. -/
theorem C128_pminres_nan [NanLaws F] (S : Minres F) (M : Op F) (n : Nat) (hn : 1 ≤ n) (hA : S.A.Runs n) (hM : M.Runs n) (hdot : S.dot = Vec.inner)
    (hsq : ∀ a : F, IsNan a → IsNan (S.sqrt a)) (b x : List F) (hb : b.length = n) (hx : x.length = n) (w : PminresState F) (hw : w.Size n)
    (hm : 1 ≤ S.maxIter)
    (hnan : ∀ y z y' u d, S.A.mult x y = .ok z → M.mult (vecFn n (fun i => vecAt b i - vecAt z i)) y' = .ok u →
      Vec.inner u (vecFn n (fun i => vecAt b i - vecAt z i)) = .ok d →
      (∃ i : Int, 0 ≤ i ∧ i < n ∧ (IsNan (vecAt b i) ∨ IsNan (vecAt z i))) ∨ IsNan (S.sqrt d)) :
    ∃ st, Pminres.multF S M b x w = .ok (S.maxIter + 1, st) ∧ st.x.length = n ∧ AllNan st.x := by
  obtain ⟨y', q, hy', e1, hq, e2⟩ := hA.multResize x w.q hx
  obtain ⟨y2, u, hy2, e3, hu, e4⟩ := hM.multResize (vecFn n (fun i => vecAt b i - vecAt q i)) w.u1 (by simp)
  obtain ⟨d, e5⟩ : ∃ d, Vec.inner u (vecFn n (fun i => vecAt b i - vecAt q i)) = .ok d := ⟨_, (C103_vector _ _).2 (by simpa using hu.symm)⟩
  have hbe : IsNan (S.sqrt d) := by
    obtain ⟨i, i0, i1, hi⟩ | h := hnan y' q y2 u d e1 e3 e5
    · have hv : SomeNan (vecFn n (fun i => vecAt b i - vecAt q i)) :=
        ⟨i, i0, by simpa using i1, by rw [vecAt_fn _ i0 i1]; exact NanLaws.sub_nan _ _ hi⟩
      obtain ⟨d', e6, hd⟩ := SomeNan.inner hu (by simp) (Or.inr hv)
      rw [e5] at e6
      obtain rfl : d = d' := by simpa using e6
      exact hsq d hd
    · exact h
  unfold Pminres.multF Pminres.startF
  rw [cassert_true (by rw [hA.rows_eq]; exact_mod_cast hb), ok_bind, cassert_true (by rw [hA.cols_eq]; exact_mod_cast hx), ok_bind]
  simp only [e2, ok_bind, update_fn _ hb hq, e4, hdot, e5]
  obtain ⟨t, e6, h1, h2⟩ := pminres_loop_nan S M n hn hA hM hdot hsq (Flt.stdMax (S.sqrt d * S.relTol * S.relTol) (S.absTol * S.absTol)) S.maxIter.toNat 1
    ⟨x, List.replicate w.w0.length 0, List.replicate w.w1.length 0, List.replicate w.v0.length 0, vecFn n (fun i => vecAt b i - vecAt q i), u, q, S.sqrt d,
      S.sqrt d, 1, 1, 0, 0, 1⟩ ⟨by simpa using hw.w0, by simpa using hw.w1, by simpa using hw.v0, by simp, hu, hq⟩ hx hbe (Or.inl (by omega))
  exact ⟨t, by rw [e6]; congr 2; omega, h1, h2⟩

/-! ## Concrete cases -/

theorem isZero_vecAt [ZeroLaws F] {u : List F} (h : ∀ a ∈ u, IsZero a) (i : Int) : IsZero (vecAt u i) := by
  unfold vecAt
  split
  · rw [List.getD_eq_getElem?_getD]
    cases e : u[i.toNat]? with
    | none => exact ZeroLaws.zero
    | some a => exact h a (List.mem_of_getElem? e)
  · exact ZeroLaws.zero

/-- **C128.**  The hypothesis of `C128_pcg_solved`: a sparse matrix with finite entries takes zeros to zeros. -/
theorem C128_csr_zero [ZeroLaws F] (A : Csr F) (hA : A.WF) (hf : ∀ a ∈ A.data, IsFin a) (u y z : List F) (hu : ∀ a ∈ u, IsZero a)
    (e : A.mult u y = .ok z) : ∀ a ∈ z, IsZero a := by
  have hs : (u.length : Int) = A.cols ∧ (y.length : Int) = A.rows := by
    have e' := e
    unfold Csr.mult at e'
    rw [bind_eq_ok] at e'
    obtain ⟨_, h1, e'⟩ := e'
    rw [bind_eq_ok] at e'
    obtain ⟨_, h2, -⟩ := e'
    rw [cassert_ok_iff] at h1 h2
    exact ⟨h1, h2⟩
  obtain ⟨y', h1, h2⟩ := C103_mult A hA u y hs.1 hs.2
  rw [e] at h1
  obtain rfl : z = y' := by simpa using h1
  have hl := h2.length_eq
  intro a ha
  obtain ⟨N, hN⟩ : ∃ N : Nat, A.rows = N := ⟨A.rows.toNat, by have := hA.rows_nonneg; omega⟩
  rw [hN] at h2
  rw [h2.eq_vecFn] at ha
  obtain ⟨i, -, -, rfl⟩ := mem_fn ha
  have key : ∀ (l : List F) (s : F), IsZero s → (∀ b ∈ l, IsZero b) → IsZero (l.foldl (· + ·) s) := by
    intro l
    induction l with
    | nil => intro s hs _; exact hs
    | cons b l ih =>
      intro s hs hb
      exact ih (s + b) (ZeroLaws.add _ _ hs (hb b (by simp))) (fun c hc => hb c (by simp [hc]))
  refine key _ 0 ZeroLaws.zero (fun b hb => ?_)
  obtain ⟨p, hp, rfl⟩ := List.mem_map.mp hb
  refine ZeroLaws.mul _ _ (Or.inr ⟨hf p.2 ?_, isZero_vecAt hu p.1⟩)
  unfold Csr.row at hp
  split at hp
  · exact (List.of_mem_zip (List.mem_of_mem_drop (List.mem_of_mem_take hp))).2
  · cases hp

/-- The matrix `[[2, 1], [1, 2]]`. -/
def fltMat : Csr (Ext ℚ) := ⟨2, 2, [0, 2, 4], [0, 1, 0, 1], [.fin 2, .fin 1, .fin 1, .fin 2]⟩

/-- CG for it. -/
def fltPcg (maxIter : Int) (absTol : ℚ) : Pcg (Ext ℚ) := ⟨fltMat.toOp, none, maxIter, .fin 0, .fin absTol, Vec.inner⟩

/-- A square root that is exact on the numbers that the runs below take it of, and NaN where the C function is. -/
def fltSqrt : Ext ℚ → Ext ℚ
  | .fin x => if x < 0 then .nan else if x = 64 then .fin 8 else if x = 1 then .fin 1 else .fin 0
  | .inf true => .nan
  | a => a

example : (fltPcg 10 (1 / 1000)).multF (.fin (-10 ^ 12)) [.fin 3, .nan] [.fin 0, .fin 0] ⟨[], [], [], [], [], 0⟩ = .error .threw :=
  C128_pcg_rhs _ 2 (fltMat.runs (by decide) 2 rfl rfl) (fun M e => by cases e) rfl _ _ _ rfl rfl _ ⟨1, by decide, by decide, by decide⟩

example : (fltPcg 10 (1 / 1000)).multF (.fin (-10 ^ 12)) [.fin 3, .fin 0] [.fin 0, .nan] ⟨[], [], [], [], [], 0⟩ = .error .threw :=
  C128_pcg_matrix _ 2 fltMat (by decide) rfl rfl rfl (fun M e => by cases e) rfl _ _ _ rfl rfl _ 0 (by decide) (by decide)
    ⟨(1, .fin 1), by decide +kernel, Or.inr (by decide +kernel)⟩

/-- At the solution with the absolute tolerance zero: NaN after one pass, an exception after two. -/
example : ((fltPcg 2 0).multF (.fin (-10 ^ 12)) [.fin 3, .fin 3] [.fin 1, .fin 1] ⟨[], [], [], [], [], 0⟩).map (fun t => (t.1, t.2.x))
    = .ok (2, [.nan, .nan]) := by decide +kernel

example : (fltPcg 3 0).multF (.fin (-10 ^ 12)) [.fin 3, .fin 3] [.fin 1, .fin 1] ⟨[], [], [], [], [], 0⟩ = .error .threw := by
  refine (C128_pcg_solved (fltPcg 3 0) 2 (by decide) (fltMat.runs (by decide) 2 rfl rfl)
    (fun u y z _ hu e => C128_csr_zero fltMat (by decide) ?_ u y z hu e) rfl rfl _ ?_ ?_ ?_ _ _ rfl rfl _ ?_).2 (by decide)
  · intro a ha
    rw [Ext.isFin_iff]
    simp only [fltMat, List.mem_cons, List.not_mem_nil, or_false] at ha
    obtain rfl | rfl | rfl | rfl := ha <;> exact ⟨_, rfl⟩
  · intro a ha
    rw [Ext.isZero_iff] at ha
    subst ha
    decide +kernel
  · exact (Ext.isFin_iff _).mpr ⟨_, rfl⟩
  · exact (Ext.isZero_iff _).mpr rfl
  · intro y z e i i0 i1
    obtain ⟨y1, y2, rfl⟩ : ∃ y1 y2, y = [y1, y2] := by
      have e' : fltMat.mult [.fin 1, .fin 1] y = .ok z := e
      unfold Csr.mult at e'
      rw [bind_eq_ok] at e'
      obtain ⟨_, -, e'⟩ := e'
      rw [bind_eq_ok] at e'
      obtain ⟨_, h, -⟩ := e'
      rw [cassert_ok_iff] at h
      have h' : (y.length : Int) = 2 := h
      exact List.length_eq_two.mp (by exact_mod_cast h')
    obtain rfl : [Ext.fin 3, Ext.fin 3] = z := by
      have : fltMat.toOp.mult [.fin 1, .fin 1] [y1, y2] = .ok [.fin 3, .fin 3] := by
        obtain ⟨y', h1, h2⟩ := C103_mult fltMat (by decide) [.fin 1, .fin 1] [y1, y2] rfl rfl
        refine h1.trans (congrArg Except.ok ?_)
        rw [VecIs.eq_vecFn (n := 2) h2]
        decide +kernel
      exact Except.ok.inj (this.symm.trans e)
    rw [Ext.isZero_iff]
    have hi : i = 0 ∨ i = 1 := by omega
    obtain rfl | rfl := hi <;> decide +kernel

/-- Without the tolerance zero the solver stops at once. -/
example : ((fltPcg 3 (1 / 1000)).multF (.fin (-10 ^ 12)) [.fin 3, .fin 3] [.fin 1, .fin 1] ⟨[], [], [], [], [], 0⟩).map (fun t => (t.1, t.2.x))
    = .ok (1, [.fin 1, .fin 1]) := by decide +kernel

example : ∃ st, (⟨fltMat.toOp, 5, .fin 0, .fin 0, fltSqrt, Vec.inner⟩ : Minres (Ext ℚ)).multF [.fin 3, .nan] [.fin 0, .fin 0]
    ⟨[], [.nan, .nan], [.nan, .nan], [.nan, .nan], [.nan, .nan], [], .nan, .nan, .nan, .nan, .nan, .nan, 0⟩ = .ok (6, st) ∧ st.x.length = 2 ∧ AllNan st.x :=
  C128_minres_nan _ 2 (fltMat.runs (by decide) 2 rfl rfl) rfl (fun a h => by rw [Ext.isNan_iff] at *; subst h; rfl) _ _ rfl rfl _ ⟨rfl, rfl, rfl, rfl⟩
    (by decide) (fun _ _ _ => ⟨1, by decide, by decide, Or.inl (by decide)⟩)

/-- `PMINRESSolver` with minus the identity as preconditioner: no NaN in the input, and only NaN in the result. -/
example : (Pminres.multF (⟨fltMat.toOp, 5, .fin 0, .fin 0, fltSqrt, Vec.inner⟩ : Minres (Ext ℚ)) (⟨2, 2, [0, 1, 2], [0, 1], [.fin (-1), .fin (-1)]⟩ : Csr (Ext ℚ)).toOp
    [.fin 3, .fin 3] [.fin 0, .fin 0] ⟨[], [.nan, .nan], [.nan, .nan], [.nan, .nan], [.nan, .nan], [.nan, .nan], [.nan, .nan], .nan, .nan, .nan, .nan, .nan, .nan, 0⟩).map
    (fun t => (t.1, t.2.x)) = .ok (6, [.nan, .nan]) := by decide +kernel

end Linalg
