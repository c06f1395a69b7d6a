import Verif.Proof.Coo
import Verif.Props.SparseVector
import Verif.Proof.SparseDense
import Mathlib.Algebra.Ring.Rat

/-!
# Coordinate matrices (C17 - C23)
-/

namespace Linalg
open Cpp

variable {α R : Type}

/-! ## Adding entries -/

theorem Coo.add_ok {C : Coo α} {i j : Int} {v : α} (hi : 0 ≤ i) (hj : 0 ≤ j)
    (hs : C.sizeSet = true → i < C.rows ∧ j < C.cols) :
    C.add i j v = .ok { C with entries := C.entries ++ [(i, j, v)] } := by
  unfold Coo.add
  rw [cassert_true hi, cassert_true hj]
  simp only [ok_bind]
  cases hc : C.sizeSet
  · rfl
  · have := hs hc
    simp only [if_true]
    rw [cassert_true this.1, cassert_true this.2]; rfl

theorem Coo.add_inv {C C' : Coo α} {i j : Int} {v : α} (h : C.add i j v = .ok C') :
    0 ≤ i ∧ 0 ≤ j ∧ (C.sizeSet = true → i < C.rows ∧ j < C.cols) ∧
      C' = { C with entries := C.entries ++ [(i, j, v)] } := by
  by_cases hc : 0 ≤ i ∧ 0 ≤ j ∧ (C.sizeSet = true → i < C.rows ∧ j < C.cols)
  · rw [Coo.add_ok hc.1 hc.2.1 hc.2.2] at h
    exact ⟨hc.1, hc.2.1, hc.2.2, (Except.ok.inj h).symm⟩
  · exfalso
    unfold Coo.add at h
    by_cases hi : i ≥ 0
    · rw [cassert_true hi, ok_bind] at h
      by_cases hj : j ≥ 0
      · rw [cassert_true hj, ok_bind] at h
        cases hs : C.sizeSet
        · exact hc ⟨hi, hj, by simp [hs]⟩
        · rw [hs] at h
          simp only [if_true] at h
          by_cases hr : i < C.rows
          · rw [cassert_true hr, ok_bind] at h
            by_cases hcl : j < C.cols
            · exact hc ⟨hi, hj, fun _ => ⟨hr, hcl⟩⟩
            · rw [cassert_false hcl] at h; cases h
          · rw [cassert_false hr] at h; cases h
      · rw [cassert_false hj] at h; cases h
    · rw [cassert_false hi] at h; cases h

theorem Coo.addAll_inv {C C' : Coo α} {l : List (Int × Int × α)} (hC : C.WF) (h : C.addAll l = .ok C') :
    C'.WF ∧ C'.rows = C.rows ∧ C'.cols = C.cols ∧ C'.sizeSet = C.sizeSet ∧ C'.entries = C.entries ++ l := by
  unfold Coo.addAll at h
  induction l generalizing C with
  | nil => rw [List.foldlM_nil] at h; obtain rfl := Except.ok.inj h; exact ⟨hC, rfl, rfl, rfl, by simp⟩
  | cons e l ih =>
    rw [List.foldlM_cons, bind_eq_ok] at h
    obtain ⟨D, h1, h2⟩ := h
    obtain ⟨a, b, c, rfl⟩ := Coo.add_inv h1
    have := ih (C := { C with entries := C.entries ++ [(e.1, e.2.1, e.2.2)] }) ⟨hC.rows_nonneg, hC.cols_nonneg, by
        intro x hx
        simp only [List.mem_append, List.mem_singleton] at hx
        rcases hx with hx | rfl
        · exact hC.entry_nonneg x hx
        · exact ⟨a, b⟩, by
        intro hs x hx
        simp only [List.mem_append, List.mem_singleton] at hx
        rcases hx with hx | rfl
        · exact hC.entry_lt hs x hx
        · exact c hs⟩ h2
    refine ⟨this.1, this.2.1, this.2.2.1, this.2.2.2.1, ?_⟩
    rw [this.2.2.2.2]; simp

/-! ## C17 -/

/-- **C17.**  `ToSparse()` of any well-formed coordinate matrix: well-formed, of the reported size, no column
twice in a row, and the coefficient at `(i, j)` is the sum of all values added there. -/
theorem C17_toSparse [AddMonoid R] (C : Coo R) (hC : C.WF) :
    ∃ A, C.toSparse = .ok A ∧ A.WF ∧ A.rows = C.findSize.1 ∧ A.cols = C.findSize.2 ∧ A.NoDup ∧
      ∀ i j, A.coef i j = C.coef i j := by
  have hs := hC.size_nonneg
  have hin := hC.in_size
  have hwf : (Csr.ofRows C.findSize.2 (cooRows C.findSize.1.toNat C.entries)).WF :=
    Csr.wf_ofRows hs.2 (cooRows_ok _ _ _ (fun e h => (hin e h).2))
  have hrows : (Csr.ofRows C.findSize.2 (cooRows C.findSize.1.toNat C.entries)).rows = C.findSize.1 := by
    simp [Csr.ofRows, cooRows]; omega
  refine ⟨_, Coo.toSparse_eq C hC, hwf, hrows, rfl, ?_, ?_⟩
  · rw [hwf.noDup_iff]
    intro k hk
    rw [hrows] at hk
    have hk' : k < (cooRows C.findSize.1.toNat C.entries).length := by simpa [cooRows] using hk
    rw [Csr.row_ofRows _ _ k hk']
    simp only [cooRows, List.getElem_map, List.getElem_range, List.map_map]
    rw [show ((Prod.fst : Int × R → Int) ∘ fun c => (c, tripleCoef C.entries (k : Int) c)) = id from rfl, List.map_id]
    exact nodup_pat _ _
  · intro i j
    by_cases hi : 0 ≤ i ∧ i < C.findSize.1
    · obtain ⟨k, rfl⟩ : ∃ k : Nat, i = k := ⟨i.toNat, by omega⟩
      have hk' : k < (cooRows C.findSize.1.toNat C.entries).length := by simp [cooRows]; omega
      rw [coef_ofRows _ _ k hk']
      simp only [cooRows, List.getElem_map, List.getElem_range]
      exact rowCoef_map_nodup _ (nodup_pat _ _) _ j (fun hn => tripleCoef_eq_zero (fun e he hx =>
        hn ((mem_pat _ _ _).mpr ⟨e, he, hx.1, hx.2⟩)))
    · rw [Csr.coef_of_not_row hwf (by rw [hrows]; omega)]
      exact (tripleCoef_eq_zero (fun e he hx => hi (by rw [← hx.1]; exact (hin e he).1))).symm

/-- **C17.**  Any accepted sequence of `Add` calls on a new matrix, sized or not, gives a well-formed matrix
whose coefficients are the sums of the added values. -/
theorem C17_history [AddMonoid R] (C0 C : Coo R) (l : List (Int × Int × R))
    (h0 : C0 = Coo.new ∨ ∃ r c, Coo.ofSize r c = .ok C0) (h : C0.addAll l = .ok C) :
    C.WF ∧ ∀ i j, C.coef i j = tripleCoef l i j := by
  have hwf : C0.WF ∧ C0.entries = [] := by
    rcases h0 with rfl | ⟨r, c, h0⟩
    · exact ⟨⟨le_rfl, le_rfl, by simp [Coo.new], by simp [Coo.new]⟩, rfl⟩
    · unfold Coo.ofSize at h0
      by_cases hr : r ≥ 0
      · by_cases hc : c ≥ 0
        · rw [cassert_true hr, cassert_true hc] at h0
          obtain rfl := Except.ok.inj h0
          exact ⟨⟨hr, hc, by simp, by simp⟩, rfl⟩
        · rw [cassert_true hr, cassert_false hc] at h0; cases h0
      · rw [cassert_false hr] at h0; cases h0
  have := Coo.addAll_inv hwf.1 h
  refine ⟨this.1, fun i j => ?_⟩
  unfold Coo.coef
  rw [this.2.2.2.2, hwf.2, List.nil_append]

/-- **C17.**  The order of the adds does not change the size or any coefficient. -/
theorem C17_order [AddCommMonoid R] (C C' : Coo R) (hs : C.sizeSet = C'.sizeSet) (hr : C.rows = C'.rows)
    (hc : C.cols = C'.cols) (h : C.entries.Perm C'.entries) :
    C.findSize = C'.findSize ∧ ∀ i j, C.coef i j = C'.coef i j := by
  refine ⟨?_, fun i j => tripleCoef_perm h i j⟩
  unfold Coo.findSize
  rw [hs, hr, hc]
  split
  · rfl
  · have : C.entries.foldl (fun (m : Int × Int) e => (max m.1 e.1, max m.2 e.2.1)) (0, 0)
        = C'.entries.foldl (fun (m : Int × Int) e => (max m.1 e.1, max m.2 e.2.1)) (0, 0) := by
      apply h.foldl_eq'
      intro x _ y _ z
      simp only [Prod.mk.injEq]
      exact ⟨by omega, by omega⟩
    rw [this]

/-- C17: duplicates and several rows, without a given size. -/
example : ∃ C : Coo Int, Coo.new.addAll [(1, 2, 5), (0, 0, 1), (1, 2, 7), (1, 0, 3)] = .ok C ∧ C.WF ∧
    C.toSparse = .ok ⟨2, 3, [0, 1, 3], [0, 2, 0], [1, 12, 3]⟩ :=
  ⟨⟨0, 0, false, [(1, 2, 5), (0, 0, 1), (1, 2, 7), (1, 0, 3)]⟩, by decide, by decide, by decide⟩

/-! ## C18 -/

/-- **C18.**  `ToDense()` and `ToSparse()` represent the same matrix, whatever the target held before. -/
theorem C18_toDense [AddCommMonoid R] (C : Coo R) (hC : C.WF) (out : Dense R) :
    ∃ D A, C.toDenseInto out = .ok D ∧ C.toSparse = .ok A ∧ D.Is A.rows A.cols (fun i j => A.coef i j) := by
  obtain ⟨A, a1, a2, a3, a4, a5, a6⟩ := C17_toSparse C hC
  have hs := hC.size_nonneg
  have hin := hC.in_size
  obtain ⟨m, hm⟩ : ∃ m : Nat, C.findSize.1 = m := ⟨C.findSize.1.toNat, by omega⟩
  obtain ⟨n, hn⟩ : ∃ n : Nat, C.findSize.2 = n := ⟨C.findSize.2.toNat, by omega⟩
  rw [hm, hn] at hin
  rw [hm] at a3
  rw [hn] at a4
  obtain ⟨f, hf⟩ := Dense.setSize_ofFn out m n
  refine ⟨Dense.ofFn m n
    (fun i j => 0 + ((C.entries.filter (fun t => t.1 = i ∧ t.2.1 = j)).map (fun t => t.2.2)).sum), A, ?_, a1, ?_⟩
  · unfold Coo.toDenseInto
    rw [hm, hn, hf, ok_bind, Dense.fill_ofFn]
    exact foldlM_add C.entries (fun _ _ => 0) hin
  · rw [a3, a4]
    refine (Dense.is_ofFn m n _).congr ?_
    intro i j _ _ _ _
    rw [a6, zero_add]
    rfl

theorem foldlM_addAt [AddMonoid R] {β : Type} {n : Nat} (l : List β) (pos : β → Int) (inc : β → R)
    (h : ∀ b ∈ l, 0 ≤ pos b ∧ pos b < (n : Int)) (f : Int → R) (body : List R → β → Res (List R))
    (hb : ∀ (out : List R) b, b ∈ l → body out b = (do
      let old ← vrd out (pos b)
      vwr out (pos b) (old + inc b))) :
    l.foldlM body (vecFn n f)
      = .ok (vecFn n (fun a => f a + (l.map (fun b => if pos b = a then inc b else 0)).sum)) := by
  induction l generalizing f with
  | nil => simp
  | cons b l ih =>
    have hp := h b (by simp)
    rw [List.foldlM_cons, hb _ b (by simp), vrd_vecFn hp.1 hp.2, ok_bind, vwr_vecFn _ hp.1 hp.2, ok_bind,
      ih (fun x hx => h x (by simp [hx])) _ (fun out x hx => hb out x (by simp [hx]))]
    congr 1
    apply vecFn_congr
    intro a _ _
    simp only [List.map_cons, List.sum_cons]
    by_cases ha : a = pos b
    · rw [if_pos ha, if_pos ha.symm, ← add_assoc, ha]
    · rw [if_neg ha, if_neg (fun e => ha e.symm), zero_add]

theorem sum_triples_row [NonUnitalNonAssocSemiring R] {n : Int} (l : List (Int × Int × R))
    (h : ∀ e ∈ l, 0 ≤ e.2.1 ∧ e.2.1 < n) (f : Int → R) (i : Int) :
    (l.map (fun e => if e.1 = i then e.2.2 * f e.2.1 else 0)).sum = ∑ j ∈ Finset.Ico 0 n, tripleCoef l i j * f j := by
  induction l with
  | nil => simp
  | cons e l ih =>
    have he := h e (by simp)
    simp only [List.map_cons, List.sum_cons, tripleCoef_cons, add_mul, Finset.sum_add_distrib]
    rw [ih (fun x hx => h x (by simp [hx]))]
    congr 1
    by_cases hi : e.1 = i
    · simp only [hi, true_and, if_true, ite_mul, zero_mul]
      rw [Finset.sum_ite_eq]
      simp [he]
    · simp [hi]

theorem sum_triples_col [NonUnitalNonAssocSemiring R] {n : Int} (l : List (Int × Int × R))
    (h : ∀ e ∈ l, 0 ≤ e.1 ∧ e.1 < n) (f : Int → R) (j : Int) :
    (l.map (fun e => if e.2.1 = j then e.2.2 * f e.1 else 0)).sum = ∑ i ∈ Finset.Ico 0 n, tripleCoef l i j * f i := by
  induction l with
  | nil => simp
  | cons e l ih =>
    have he := h e (by simp)
    simp only [List.map_cons, List.sum_cons, tripleCoef_cons, add_mul, Finset.sum_add_distrib]
    rw [ih (fun x hx => h x (by simp [hx]))]
    congr 1
    by_cases hi : e.2.1 = j
    · simp only [hi, and_true, if_true, ite_mul, zero_mul]
      rw [Finset.sum_ite_eq]
      simp [he]
    · simp [hi]

theorem Coo.findSize_sized {C : Coo α} (hs : C.sizeSet = true) : C.findSize = (C.rows, C.cols) := by
  unfold findSize; rw [if_pos hs]

/-- The product of a sized coordinate matrix, whatever the output held before. -/
theorem C18_mult_value [NonUnitalNonAssocSemiring R] (C : Coo R) (hC : C.WF) (hs : C.sizeSet = true) (x y : List R)
    (hx : (x.length : Int) = C.cols) (hy : (y.length : Int) = C.rows) :
    ∃ y', C.mult x y = .ok y' ∧
      VecIs y' C.rows (fun i => ∑ j ∈ Finset.Ico 0 C.cols, C.coef i j * vecAt x j) := by
  have hin := hC.in_size
  rw [Coo.findSize_sized hs] at hin
  refine ⟨vecFn y.length (fun i => ∑ j ∈ Finset.Ico 0 C.cols, C.coef i j * vecAt x j), ?_,
    by rw [← hy]; exact is_vecFn _ _⟩
  unfold Coo.mult
  rw [cassert_true hy.symm, cassert_true hx.symm]
  simp only [ok_bind, replicate_vecFn]
  rw [foldlM_addAt C.entries (fun e => e.1) (fun e => e.2.2 * vecAt x e.2.1)
    (fun e he => by have := (hin e he).1; simp only at this; omega)]
  · congr 1
    apply vecFn_congr
    intro i _ _
    rw [zero_add, sum_triples_row (n := C.cols) C.entries (fun e he => (hin e he).2)]
    rfl
  · intro out e he
    have := (hin e he).2
    rw [vrd_vecAt x this.1 (by simp only at this; omega), ok_bind]

/-- **C18.**  On a sized matrix, `Mult` gives exactly what `ToSparse().Mult` gives. -/
theorem C18_mult [NonUnitalNonAssocSemiring R] (C : Coo R) (hC : C.WF) (hs : C.sizeSet = true) (x y : List R) :
    ∃ A, C.toSparse = .ok A ∧ C.mult x y = A.mult x y := by
  obtain ⟨A, a1, a2, a3, a4, a5, a6⟩ := C17_toSparse C hC
  rw [Coo.findSize_sized hs] at a3 a4
  simp only at a3 a4
  refine ⟨A, a1, ?_⟩
  by_cases hx : (x.length : Int) = C.cols
  · by_cases hy : (y.length : Int) = C.rows
    · obtain ⟨u, u1, u2⟩ := C18_mult_value C hC hs x y hx hy
      obtain ⟨v, v1, v2, v3⟩ := C01_mult A a2 x y (by rw [a4]; exact hx) (by rw [a3]; exact hy)
      rw [u1, v1]
      congr 1
      refine u2.unique ⟨by rw [v2, a3], ?_⟩
      intro i h0 h1
      rw [v3 i h0 (by rw [a3]; exact h1)]
      unfold Csr.mulVec
      rw [a4]
      simp only [a6]
    · rw [C01_mult_rejects A x y (Or.inr (by rw [a3]; exact hy))]
      unfold Coo.mult
      rw [cassert_false (fun e => hy e.symm)]; rfl
  · rw [C01_mult_rejects A x y (Or.inl (by rw [a4]; exact hx))]
    unfold Coo.mult
    by_cases hy : C.rows = (y.length : Int)
    · rw [cassert_true hy, cassert_false (fun e => hx e.symm)]; rfl
    · rw [cassert_false hy]; rfl

/-- C18: a sized 2 x 3 matrix with duplicates. -/
example : ∃ C : Coo Int, C.WF ∧ C.sizeSet = true ∧ C.mult [1, 10, 100] [9, 9] = .ok [20, 500] ∧
    C.toDense = .ok ⟨2, 3, [0, 0, 2, 0, 0, 5]⟩ :=
  ⟨⟨2, 3, true, [(0, 1, 1), (1, 2, 5), (0, 1, 1)]⟩, by decide, by decide, by decide, by decide⟩

/-! ## C19 -/

/-- **C19.**  A sized matrix reports its size. -/
theorem C19_sized (C : Coo α) (hs : C.sizeSet = true) : C.findSize = (C.rows, C.cols) := Coo.findSize_sized hs

/-- **C19.**  `Add` accepts exactly the positions inside the size (any non-negative position if no size was
given) and rejects everything else by assertion. -/
theorem C19_add (C : Coo α) (i j : Int) (v : α) :
    (0 ≤ i ∧ 0 ≤ j ∧ (C.sizeSet = true → i < C.rows ∧ j < C.cols) →
      C.add i j v = .ok { C with entries := C.entries ++ [(i, j, v)] }) ∧
    (¬ (0 ≤ i ∧ 0 ≤ j ∧ (C.sizeSet = true → i < C.rows ∧ j < C.cols)) → C.add i j v = .error .assertFail) := by
  refine ⟨fun h => Coo.add_ok h.1 h.2.1 h.2.2, fun h => ?_⟩
  unfold Coo.add
  by_cases hi : i ≥ 0
  · rw [cassert_true hi, ok_bind]
    by_cases hj : j ≥ 0
    · rw [cassert_true hj, ok_bind]
      cases hs : C.sizeSet
      · exact absurd ⟨hi, hj, by simp [hs]⟩ h
      · simp only [if_true]
        by_cases hr : i < C.rows
        · rw [cassert_true hr, ok_bind]
          by_cases hcl : j < C.cols
          · exact absurd ⟨hi, hj, fun _ => ⟨hr, hcl⟩⟩ h
          · rw [cassert_false hcl]; rfl
        · rw [cassert_false hr]; rfl
    · rw [cassert_false hj]; rfl
  · rw [cassert_false hi]; rfl

/-- **C19.**  An unsized matrix with entries reports the least size containing all of them. -/
theorem C19_unsized (C : Coo α) (hC : C.WF) (hs : C.sizeSet = false) (hne : C.entries ≠ []) :
    (∀ e ∈ C.entries, e.1 < C.findSize.1 ∧ e.2.1 < C.findSize.2) ∧
    (∀ r c, (∀ e ∈ C.entries, e.1 < r ∧ e.2.1 < c) → C.findSize.1 ≤ r ∧ C.findSize.2 ≤ c) := by
  have hf := foldl_max_size C.entries (0, 0)
  refine ⟨fun e he => ⟨(hC.in_size e he).1.2, (hC.in_size e he).2.2⟩, fun r c h => ?_⟩
  unfold Coo.findSize
  rw [hs]
  simp only [Bool.false_eq_true, if_false]
  simp only at hf
  generalize C.entries.foldl (fun (m : Int × Int) e => (max m.1 e.1, max m.2 e.2.1)) (0, 0) = m at hf
  obtain ⟨_, h2, h3, h4⟩ := hf
  obtain ⟨e0, he0⟩ := List.exists_mem_of_ne_nil _ hne
  have b0 := hC.entry_nonneg e0 he0
  have b1 := h e0 he0
  constructor
  · rcases h3 with h3 | ⟨e, he, h3⟩
    · clear h4; omega
    · have := (h e he).1; clear h4; omega
  · rcases h4 with h4 | ⟨e, he, h4⟩
    · clear h3; omega
    · have := (h e he).2; clear h3; omega

/-- **C19.**  An empty unsized matrix reports 1 x 1. -/
theorem C19_unsized_empty : (Coo.new : Coo α).findSize = (1, 1) := rfl

/-- C19: an unsized matrix with two entries; a rejected add on a sized one. -/
example : ∃ C : Coo Int, C.WF ∧ C.sizeSet = false ∧ C.entries ≠ [] ∧ C.findSize = (4, 6) ∧
    (⟨2, 2, true, []⟩ : Coo Int).add 2 0 1 = .error .assertFail :=
  ⟨⟨0, 0, false, [(3, 0, 1), (0, 5, 1)]⟩, by decide, by decide, by decide, by decide, by decide⟩

/-! ## C20 -/

/-- **C20.**  `AddSym` adds `v` at `(i, j)` and, off the diagonal, at `(j, i)`. -/
theorem C20_addSym [AddCommMonoid R] (C C' : Coo R) (hC : C.WF) (i j : Int) (v : R) (h : C.addSym i j v = .ok C') :
    C'.WF ∧ ∀ a b, C'.coef a b = C.coef a b + (if a = i ∧ b = j then v else 0)
      + (if i ≠ j ∧ a = j ∧ b = i then v else 0) := by
  unfold Coo.addSym at h
  by_cases hij : i ≠ j
  · have e : C.addAll [(i, j, v), (j, i, v)] = .ok C' := by
      simp only [Coo.addAll, List.foldlM_cons, List.foldlM_nil]
      simpa only [if_pos hij, pure_eq_ok, bind_ok_right] using h
    have := Coo.addAll_inv hC e
    refine ⟨this.1, fun a b => ?_⟩
    unfold Coo.coef
    rw [this.2.2.2.2, tripleCoef_append, tripleCoef_cons, tripleCoef_cons, tripleCoef_nil, add_zero, ← add_assoc]
    congr 1
    · congr 1
      simp only [eq_comm]
    · simp only [hij, ne_eq, not_false_eq_true, true_and, eq_comm]
  · have e : C.addAll [(i, j, v)] = .ok C' := by
      simp only [Coo.addAll, List.foldlM_cons, List.foldlM_nil]
      simpa only [if_neg hij, pure_eq_ok, bind_ok_right] using h
    have := Coo.addAll_inv hC e
    refine ⟨this.1, fun a b => ?_⟩
    unfold Coo.coef
    rw [this.2.2.2.2, tripleCoef_append, tripleCoef_cons, tripleCoef_nil, add_zero]
    simp only [hij, false_and, if_false, add_zero, eq_comm]

/-- **C20.**  Matrices built only by `AddSym` are symmetric, whatever the calls. -/
theorem C20_addSym_history [AddCommMonoid R] (C0 C : Coo R) (l : List (Int × Int × R)) (h0 : C0.WF)
    (hs : ∀ i j, C0.coef i j = C0.coef j i)
    (h : l.foldlM (fun C e => C.addSym e.1 e.2.1 e.2.2) C0 = .ok C) :
    C.WF ∧ ∀ i j, C.coef i j = C.coef j i := by
  induction l generalizing C0 with
  | nil => rw [List.foldlM_nil] at h; obtain rfl := Except.ok.inj h; exact ⟨h0, hs⟩
  | cons e l ih =>
    rw [List.foldlM_cons, bind_eq_ok] at h
    obtain ⟨D, h1, h2⟩ := h
    obtain ⟨d1, d2⟩ := C20_addSym C0 D h0 _ _ _ h1
    refine ih D d1 ?_ h2
    intro a b
    rw [d2, d2, hs a b, add_assoc, add_assoc]
    congr 1
    by_cases hij : e.1 = e.2.1
    · simp only [hij, ne_eq, not_true_eq_false, false_and, if_false, add_zero, and_comm]
    · simp only [hij, ne_eq, not_false_eq_true, true_and]
      rw [add_comm]
      congr 1 <;> simp only [and_comm]

/-- One loop of adds. -/
theorem coo_loop (C : Coo α) (n : Nat) (r c : Int → Int) (v : Int → α)
    (h : ∀ i : Int, 0 ≤ i → i < n → 0 ≤ r i ∧ 0 ≤ c i ∧ (C.sizeSet = true → r i < C.rows ∧ c i < C.cols))
    (pre : List (Int × Int × α)) (body : Int → Coo α → Res (Coo α))
    (hb : ∀ (i : Int) D, 0 ≤ i → i < n → body i D = D.add (r i) (c i) (v i)) :
    forUp 0 (n : Int) { C with entries := pre } body
      = .ok { C with entries := pre ++ (iota n).map (fun i => (r i, c i, v i)) } := by
  have e0 : ({ C with entries := pre } : Coo α)
      = { C with entries := pre ++ (iota (0 : Int).toNat).map (fun i => (r i, c i, v i)) } := by simp [iota]
  have e1 : ({ C with entries := pre ++ (iota n).map (fun i => (r i, c i, v i)) } : Coo α)
      = { C with entries := pre ++ (iota (n : Int).toNat).map (fun i => (r i, c i, v i)) } := by simp
  rw [e0, e1]
  refine forUp_seq (by omega)
    (fun k => ({ C with entries := pre ++ (iota k.toNat).map (fun i => (r i, c i, v i)) } : Coo α)) ?_
  intro k k0 k1
  have := h k k0 k1
  rw [hb k _ k0 k1]
  refine (Coo.add_ok this.1 this.2.1 (by exact this.2.2)).trans ?_
  congr 2
  rw [show (k + 1).toNat = k.toNat + 1 by omega, iota_succ, List.map_append, ← List.append_assoc,
    show ((k.toNat : Nat) : Int) = k by omega]
  rfl

theorem coo_loop2 (C : Coo α) (m n : Nat) (r c : Int → Int) (v : Int → Int → α)
    (h : ∀ p q : Int, 0 ≤ p → p < m → 0 ≤ q → q < n →
      0 ≤ r p ∧ 0 ≤ c q ∧ (C.sizeSet = true → r p < C.rows ∧ c q < C.cols))
    (body : Int → Coo α → Res (Coo α)) (inner : Int → Int → Coo α → Res (Coo α))
    (hb : ∀ (q : Int) D, 0 ≤ q → q < n → body q D = forUp 0 (m : Int) D (inner q))
    (hi : ∀ (q p : Int) D, 0 ≤ q → q < n → 0 ≤ p → p < m → inner q p D = D.add (r p) (c q) (v p q)) :
    forUp 0 (n : Int) C body
      = .ok { C with entries := C.entries ++
          (iota n).flatMap (fun q => (iota m).map (fun p => (r p, c q, v p q))) } := by
  have e0 : C = { C with entries := C.entries ++
          (iota (0 : Int).toNat).flatMap (fun q => (iota m).map (fun p => (r p, c q, v p q))) } := by simp [iota]
  have e1 : (n : Int).toNat = n := by simp
  rw (occs := .pos [1]) [e0]
  have := forUp_seq (n := (n : Int)) (by omega) (body := body)
    (fun k => ({ C with entries := C.entries ++
          (iota k.toNat).flatMap (fun q => (iota m).map (fun p => (r p, c q, v p q))) } : Coo α)) (by
    intro k k0 k1
    rw [hb k _ k0 k1, coo_loop C m r (fun _ => c k) (fun p => v p k) (fun p p0 p1 => h p k p0 p1 k0 k1) _ _
      (fun p D p0 p1 => hi k p D k0 k1 p0 p1)]
    congr 2
    rw [show (k + 1).toNat = k.toNat + 1 by omega, iota_succ, List.flatMap_append, ← List.append_assoc]
    rw [show ((k.toNat : Nat) : Int) = k by omega]
    simp)
  rw [e1] at this
  exact this

theorem coo_block_coef [AddCommMonoid R] (C : Coo R) (m n : Nat) (r c : Int → Int) (v : Int → Int → R) (a b : Int) :
    ({ C with entries := C.entries ++
          (iota n).flatMap (fun q => (iota m).map (fun p => (r p, c q, v p q))) } : Coo R).coef a b
      = C.coef a b + ∑ q ∈ Finset.Ico (0 : Int) n, ∑ p ∈ Finset.Ico (0 : Int) m,
          if r p = a ∧ c q = b then v p q else 0 := by
  unfold Coo.coef
  rw [tripleCoef_append, tripleCoef_flatMap, sum_iota]
  congr 1
  apply Finset.sum_congr rfl
  intro q _
  rw [tripleCoef_map, sum_iota]

theorem coo_list_coef [AddCommMonoid R] (C : Coo R) (n : Nat) (r c : Int → Int) (v : Int → R) (a b : Int) :
    ({ C with entries := C.entries ++ (iota n).map (fun i => (r i, c i, v i)) } : Coo R).coef a b
      = C.coef a b + ∑ i ∈ Finset.Ico (0 : Int) n, if r i = a ∧ c i = b then v i else 0 := by
  unfold Coo.coef
  rw [tripleCoef_append, tripleCoef_map, sum_iota]

/-- A position may be added to `C`. -/
def Coo.Admits (C : Coo α) (i j : Int) : Prop := 0 ≤ i ∧ 0 ≤ j ∧ (C.sizeSet = true → i < C.rows ∧ j < C.cols)

theorem vecAt_mem {x : List Int} {i : Int} (h0 : 0 ≤ i) (h1 : i < x.length) : vecAt x i ∈ x := by
  rw [vecAt_int x h0 h1]; exact List.getElem_mem _

/-- **C20.**  `Add(rows, cols, values)` and its scaled form add `values(p, q)` (times the scale) at
`(rows[p], cols[q])` for all `p`, `q`.  `Add(indices, values)` is the case `rows = cols`. -/
theorem C20_addBlock [NonUnitalNonAssocSemiring R] (C : Coo R) (rows cols : List Int) (s : R) (B : Dense R)
    (hB : B.WF) (hr : (rows.length : Int) = B.rows) (hc : (cols.length : Int) = B.cols)
    (hadm : ∀ r ∈ rows, ∀ c ∈ cols, C.Admits r c) :
    (∃ C', C.addBlock rows cols B = .ok C' ∧ ∀ a b, C'.coef a b = C.coef a b +
      ∑ q ∈ Finset.Ico 0 B.cols, ∑ p ∈ Finset.Ico 0 B.rows,
        if vecAt rows p = a ∧ vecAt cols q = b then B.entry p q else 0) ∧
    (∃ C', C.addBlockScaled rows cols s B = .ok C' ∧ ∀ a b, C'.coef a b = C.coef a b +
      ∑ q ∈ Finset.Ico 0 B.cols, ∑ p ∈ Finset.Ico 0 B.rows,
        if vecAt rows p = a ∧ vecAt cols q = b then s * B.entry p q else 0) := by
  have hB' := hB.is_entry
  have hA : ∀ p q : Int, 0 ≤ p → p < rows.length → 0 ≤ q → q < cols.length →
      0 ≤ vecAt rows p ∧ 0 ≤ vecAt cols q ∧ (C.sizeSet = true → vecAt rows p < C.rows ∧ vecAt cols q < C.cols) :=
    fun p q p0 p1 q0 q1 => hadm _ (vecAt_mem p0 p1) _ (vecAt_mem q0 q1)
  rw [← hr, ← hc] at hB' ⊢
  constructor
  · refine ⟨_, ?_, fun a b => coo_block_coef C rows.length cols.length (vecAt rows) (vecAt cols) B.entry a b⟩
    unfold Coo.addBlock
    rw [cassert_true hr, cassert_true hc]
    simp only [ok_bind]
    rw [← hr, ← hc]
    refine coo_loop2 C rows.length cols.length (vecAt rows) (vecAt cols) B.entry hA _
      (fun q p D => do
        let row ← rd rows p
        let val ← B.get p q
        D.add row (vecAt cols q) val) ?_ ?_
    · intro q D q0 q1
      rw [rd_vecAt cols q0 q1, ok_bind]
    · intro q p D q0 q1 p0 p1
      rw [rd_vecAt rows p0 p1, ok_bind, hB'.get_eq p q p0 p1 q0 q1, ok_bind]
  · refine ⟨_, ?_, fun a b => coo_block_coef C rows.length cols.length (vecAt rows) (vecAt cols)
      (fun p q => s * B.entry p q) a b⟩
    unfold Coo.addBlockScaled
    rw [cassert_true hr, cassert_true hc]
    simp only [ok_bind]
    rw [← hr, ← hc]
    refine coo_loop2 C rows.length cols.length (vecAt rows) (vecAt cols) (fun p q => s * B.entry p q) hA _
      (fun q p D => do
        let row ← rd rows p
        let val ← B.get p q
        D.add row (vecAt cols q) (s * val)) ?_ ?_
    · intro q D q0 q1
      rw [rd_vecAt cols q0 q1, ok_bind]
    · intro q p D q0 q1 p0 p1
      rw [rd_vecAt rows p0 p1, ok_bind, hB'.get_eq p q p0 p1 q0 q1, ok_bind]

/-- **C20.**  The vector forms: a (scaled) column of values, a (scaled) row of values. -/
theorem C20_addVector [NonUnitalNonAssocSemiring R] (C : Coo R) (ix : List Int) (k : Int) (s : R) (v : List R)
    (hv : ix.length = v.length) :
    ((∀ r ∈ ix, C.Admits r k) →
      (∃ C', C.addCol ix k v = .ok C' ∧ ∀ a b, C'.coef a b = C.coef a b +
        ∑ i ∈ Finset.Ico 0 (ix.length : Int), if vecAt ix i = a ∧ k = b then vecAt v i else 0) ∧
      (∃ C', C.addColScaled ix k s v = .ok C' ∧ ∀ a b, C'.coef a b = C.coef a b +
        ∑ i ∈ Finset.Ico 0 (ix.length : Int), if vecAt ix i = a ∧ k = b then s * vecAt v i else 0)) ∧
    ((∀ c ∈ ix, C.Admits k c) →
      (∃ C', C.addRow k ix v = .ok C' ∧ ∀ a b, C'.coef a b = C.coef a b +
        ∑ i ∈ Finset.Ico 0 (ix.length : Int), if k = a ∧ vecAt ix i = b then vecAt v i else 0) ∧
      (∃ C', C.addRowScaled k ix s v = .ok C' ∧ ∀ a b, C'.coef a b = C.coef a b +
        ∑ i ∈ Finset.Ico 0 (ix.length : Int), if k = a ∧ vecAt ix i = b then s * vecAt v i else 0)) := by
  constructor
  · intro hadm
    constructor
    · refine ⟨_, ?_, fun a b => coo_list_coef C ix.length (vecAt ix) (fun _ => k) (vecAt v) a b⟩
      unfold Coo.addCol
      rw [cassert_true hv, ok_bind]
      refine coo_loop C ix.length (vecAt ix) (fun _ => k) (vecAt v) (fun i i0 i1 => hadm _ (vecAt_mem i0 i1)) _ _ ?_
      intro i D i0 i1
      rw [rd_vecAt ix i0 i1, ok_bind, vrd_vecAt v i0 (by omega), ok_bind]
    · refine ⟨_, ?_, fun a b => coo_list_coef C ix.length (vecAt ix) (fun _ => k) (fun i => s * vecAt v i) a b⟩
      unfold Coo.addColScaled
      rw [cassert_true hv, ok_bind]
      refine coo_loop C ix.length (vecAt ix) (fun _ => k) (fun i => s * vecAt v i)
        (fun i i0 i1 => hadm _ (vecAt_mem i0 i1)) _ _ ?_
      intro i D i0 i1
      rw [rd_vecAt ix i0 i1, ok_bind, vrd_vecAt v i0 (by omega), ok_bind]
  · intro hadm
    constructor
    · refine ⟨_, ?_, fun a b => coo_list_coef C ix.length (fun _ => k) (vecAt ix) (vecAt v) a b⟩
      unfold Coo.addRow
      rw [cassert_true hv, ok_bind]
      refine coo_loop C ix.length (fun _ => k) (vecAt ix) (vecAt v) (fun i i0 i1 => hadm _ (vecAt_mem i0 i1)) _ _ ?_
      intro i D i0 i1
      rw [rd_vecAt ix i0 i1, ok_bind, vrd_vecAt v i0 (by omega), ok_bind]
    · refine ⟨_, ?_, fun a b => coo_list_coef C ix.length (fun _ => k) (vecAt ix) (fun i => s * vecAt v i) a b⟩
      unfold Coo.addRowScaled
      rw [cassert_true hv, ok_bind]
      refine coo_loop C ix.length (fun _ => k) (vecAt ix) (fun i => s * vecAt v i)
        (fun i i0 i1 => hadm _ (vecAt_mem i0 i1)) _ _ ?_
      intro i D i0 i1
      rw [rd_vecAt ix i0 i1, ok_bind, vrd_vecAt v i0 (by omega), ok_bind]

/-- **C20.**  The indexable-object forms: `values[i]` (times the scale) at `(rows[i], cols[i])`. -/
theorem C20_addZip [NonUnitalNonAssocSemiring R] (C : Coo R) (rows cols : List Int) (s : R) (v : List R)
    (hr : rows.length = v.length) (hc : cols.length = v.length)
    (hadm : ∀ i : Int, 0 ≤ i → i < v.length → C.Admits (vecAt rows i) (vecAt cols i)) :
    (∃ C', C.addZip rows cols v = .ok C' ∧ ∀ a b, C'.coef a b = C.coef a b +
      ∑ i ∈ Finset.Ico 0 (v.length : Int), if vecAt rows i = a ∧ vecAt cols i = b then vecAt v i else 0) ∧
    (∃ C', C.addZipScaled rows cols s v = .ok C' ∧ ∀ a b, C'.coef a b = C.coef a b +
      ∑ i ∈ Finset.Ico 0 (v.length : Int), if vecAt rows i = a ∧ vecAt cols i = b then s * vecAt v i else 0) := by
  constructor
  · refine ⟨_, ?_, fun a b => coo_list_coef C v.length (vecAt rows) (vecAt cols) (vecAt v) a b⟩
    unfold Coo.addZip
    rw [cassert_true hr, cassert_true hc]
    simp only [ok_bind]
    rw [hc]
    refine coo_loop C v.length (vecAt rows) (vecAt cols) (vecAt v) hadm _ _ ?_
    intro i D i0 i1
    rw [rd_vecAt rows i0 (by omega), ok_bind, rd_vecAt cols i0 (by omega), ok_bind, rd_vecAt v i0 (by omega), ok_bind]
  · refine ⟨_, ?_, fun a b => coo_list_coef C v.length (vecAt rows) (vecAt cols) (fun i => s * vecAt v i) a b⟩
    unfold Coo.addZipScaled
    rw [cassert_true hr, cassert_true hc]
    simp only [ok_bind]
    rw [hc]
    refine coo_loop C v.length (vecAt rows) (vecAt cols) (fun i => s * vecAt v i) hadm _ _ ?_
    intro i D i0 i1
    rw [rd_vecAt rows i0 (by omega), ok_bind, rd_vecAt cols i0 (by omega), ok_bind, rd_vecAt v i0 (by omega), ok_bind]

/-- C20: a symmetric add, then a scaled block with a repeated index. -/
example : ∃ C : Coo Int, C.WF ∧ (∀ r ∈ [1, 1], ∀ c ∈ [0], C.Admits r c) ∧
    C.addSym 0 1 5 = .ok ⟨2, 2, true, [(0, 1, 5), (1, 0, 5)]⟩ ∧
    C.addBlockScaled [1, 1] [0] 2 ⟨2, 1, [3, 4]⟩ = .ok ⟨2, 2, true, [(1, 0, 6), (1, 0, 8)]⟩ :=
  ⟨⟨2, 2, true, []⟩, by decide, by intro r hr c hc; simp at hr hc; subst hr hc; exact ⟨by decide, by decide, by decide⟩,
    by decide, by decide⟩

/-! ## C21 -/

/-- **C21 (partial).**  `MultAT` on a sized *square* matrix.  Missing: rectangular matrices, for which the
size assertions are those of the untransposed product (`C21_rectangular_false`). -/
theorem C21_multAT_partial [NonUnitalNonAssocSemiring R] (C : Coo R) (hC : C.WF) (hs : C.sizeSet = true)
    (hsq : C.rows = C.cols) (x y : List R) (hx : (x.length : Int) = C.rows) (hy : (y.length : Int) = C.cols) :
    ∃ y', C.multAT x y = .ok y' ∧
      VecIs y' C.cols (fun j => ∑ i ∈ Finset.Ico 0 C.rows, C.coef i j * vecAt x i) := by
  have hin := hC.in_size
  rw [Coo.findSize_sized hs] at hin
  refine ⟨vecFn y.length (fun j => ∑ i ∈ Finset.Ico 0 C.rows, C.coef i j * vecAt x i), ?_,
    by rw [← hy]; exact is_vecFn _ _⟩
  unfold Coo.multAT
  rw [cassert_true (by omega), cassert_true (by omega)]
  simp only [ok_bind, replicate_vecFn]
  rw [foldlM_addAt C.entries (fun e => e.2.1) (fun e => e.2.2 * vecAt x e.1)
    (fun e he => by have := (hin e he).2; simp only at this; omega)]
  · congr 1
    apply vecFn_congr
    intro i _ _
    rw [zero_add, sum_triples_col (n := C.rows) C.entries (fun e he => (hin e he).1)]
    rfl
  · intro out e he
    have := (hin e he).1
    rw [vrd_vecAt x this.1 (by simp only at this; omega), ok_bind]

/-- **C21.**  The unrestricted claim is false: on a rectangular matrix every correctly sized call is rejected. -/
theorem C21_rectangular_false [NonUnitalNonAssocSemiring R] (C : Coo R) (hne : C.rows ≠ C.cols) (x y : List R)
    (hy : (y.length : Int) = C.cols) : C.multAT x y = .error .assertFail := by
  unfold Coo.multAT
  rw [cassert_false (fun e => hne (by omega))]; rfl

/-- **C21.**  And the sizes it does accept make a 1 x 2 matrix with one entry index past the output. -/
theorem C21_accepted_sizes_false : ∃ (C : Coo Int), C.WF ∧ C.sizeSet = true ∧
    C.rows = ([0] : List Int).length ∧ C.cols = ([5, 6] : List Int).length ∧
    C.multAT [5, 6] [0] = .error .assertFail :=
  ⟨⟨1, 2, true, [(0, 1, 3)]⟩, by decide, by decide, by decide, by decide, by decide⟩

/-- C21: a square matrix meeting the hypotheses. -/
example : ∃ C : Coo Int, C.WF ∧ C.sizeSet = true ∧ C.rows = C.cols ∧ C.multAT [1, 10] [7, 7] = .ok [20, 3] :=
  ⟨⟨2, 2, true, [(0, 1, 3), (1, 0, 2)]⟩, by decide, by decide, by decide, by decide⟩

/-! ## C22 -/

theorem IsPerm.inj {p : List Int} {n : Int} (h : IsPerm n p) {i j : Int} (hi : 0 ≤ i) (hi' : i < n) (hj : 0 ≤ j)
    (hj' : j < n) (e : vecAt p i = vecAt p j) : i = j := by
  have hl := h.1
  rw [vecAt_int p hi (by omega), vecAt_int p hj (by omega)] at e
  have := h.2.2.getElem_inj_iff.mp e
  omega

theorem tripleCoef_relabel [AddMonoid R] (l : List (Int × Int × R)) (ρ σ : Int → Int) (i j : Int)
    (hr : ∀ e ∈ l, ρ e.1 = ρ i → e.1 = i) (hc : ∀ e ∈ l, σ e.2.1 = σ j → e.2.1 = j) :
    tripleCoef (l.map (fun e => (ρ e.1, σ e.2.1, e.2.2))) (ρ i) (σ j) = tripleCoef l i j := by
  induction l with
  | nil => rfl
  | cons e l ih =>
    rw [List.map_cons, tripleCoef_cons, tripleCoef_cons, ih (fun x hx => hr x (by simp [hx]))
      (fun x hx => hc x (by simp [hx]))]
    congr 1
    have h1 := hr e (by simp)
    have h2 := hc e (by simp)
    by_cases h : e.1 = i ∧ e.2.1 = j
    · rw [if_pos h, if_pos (by simp [h.1, h.2])]
    · rw [if_neg h, if_neg (fun x => h ⟨h1 x.1, h2 x.2⟩)]

/-- **C22.**  The three permutations move coefficients and keep the values, their order and the number of
entries. -/
theorem C22_permute [AddMonoid R] (C : Coo R) (hC : C.WF) (p q : List Int) (hp : IsPerm C.findSize.1 p)
    (hq : IsPerm C.findSize.2 q) :
    (∃ C', C.permuteRows p = .ok C' ∧ C'.entries.map (fun e => e.2.2) = C.entries.map (fun e => e.2.2) ∧
      ∀ i j, 0 ≤ i → i < C.findSize.1 → C'.coef (vecAt p i) j = C.coef i j) ∧
    (∃ C', C.permuteCols q = .ok C' ∧ C'.entries.map (fun e => e.2.2) = C.entries.map (fun e => e.2.2) ∧
      ∀ i j, 0 ≤ j → j < C.findSize.2 → C'.coef i (vecAt q j) = C.coef i j) ∧
    (∃ C', C.permuteRowsCols p q = .ok C' ∧ C'.entries.map (fun e => e.2.2) = C.entries.map (fun e => e.2.2) ∧
      ∀ i j, 0 ≤ i → i < C.findSize.1 → 0 ≤ j → j < C.findSize.2 →
        C'.coef (vecAt p i) (vecAt q j) = C.coef i j) := by
  have hin := hC.in_size
  have hpl := hp.1
  have hql := hq.1
  refine ⟨?_, ?_, ?_⟩
  · refine ⟨{ C with entries := C.entries.map (fun e => (vecAt p e.1, e.2.1, e.2.2)) }, ?_, ?_, ?_⟩
    · unfold Coo.permuteRows
      rw [cassert_true hpl, ok_bind, mapM_ok C.entries _ (fun e => (vecAt p e.1, e.2.1, e.2.2))]
      · rfl
      · intro e he
        rw [rd_vecAt p (hin e he).1.1 (by have := (hin e he).1.2; omega), ok_bind]
    · simp [Function.comp_def]
    · intro i j hi hi'
      exact tripleCoef_relabel C.entries (vecAt p) id i j
        (fun e he h => hp.inj (hin e he).1.1 (hin e he).1.2 hi hi' h) (fun e he h => h)
  · refine ⟨{ C with entries := C.entries.map (fun e => (e.1, vecAt q e.2.1, e.2.2)) }, ?_, ?_, ?_⟩
    · unfold Coo.permuteCols
      rw [cassert_true hql, ok_bind, mapM_ok C.entries _ (fun e => (e.1, vecAt q e.2.1, e.2.2))]
      · rfl
      · intro e he
        rw [rd_vecAt q (hin e he).2.1 (by have := (hin e he).2.2; omega), ok_bind]
    · simp [Function.comp_def]
    · intro i j hj hj'
      exact tripleCoef_relabel C.entries id (vecAt q) i j (fun e he h => h)
        (fun e he h => hq.inj (hin e he).2.1 (hin e he).2.2 hj hj' h)
  · refine ⟨{ C with entries := C.entries.map (fun e => (vecAt p e.1, vecAt q e.2.1, e.2.2)) }, ?_, ?_, ?_⟩
    · unfold Coo.permuteRowsCols
      rw [cassert_true hpl, cassert_true hql]
      simp only [ok_bind]
      rw [mapM_ok C.entries _ (fun e => (vecAt p e.1, vecAt q e.2.1, e.2.2))]
      · rfl
      · intro e he
        rw [rd_vecAt p (hin e he).1.1 (by have := (hin e he).1.2; omega), ok_bind,
          rd_vecAt q (hin e he).2.1 (by have := (hin e he).2.2; omega), ok_bind]
    · simp [Function.comp_def]
    · intro i j hi hi' hj hj'
      exact tripleCoef_relabel C.entries (vecAt p) (vecAt q) i j
        (fun e he h => hp.inj (hin e he).1.1 (hin e he).1.2 hi hi' h)
        (fun e he h => hq.inj (hin e he).2.1 (hin e he).2.2 hj hj' h)

/-- **C22.**  A permutation of the wrong length is rejected. -/
theorem C22_rejects (C : Coo α) (p q : List Int) :
    ((p.length : Int) ≠ C.findSize.1 → C.permuteRows p = .error .assertFail ∧
      C.permuteRowsCols p q = .error .assertFail) ∧
    ((q.length : Int) ≠ C.findSize.2 → C.permuteCols q = .error .assertFail) := by
  unfold Coo.permuteRows Coo.permuteCols Coo.permuteRowsCols
  refine ⟨fun h => ?_, fun h => ?_⟩
  · rw [cassert_false h]; exact ⟨rfl, rfl⟩
  · rw [cassert_false h]; rfl

/-- C22: a rotation of three rows. -/
example : ∃ (C : Coo Int) (p : List Int), C.WF ∧ IsPerm C.findSize.1 p ∧
    C.permuteRows p = .ok ⟨3, 2, true, [(1, 0, 7), (0, 1, 8)]⟩ :=
  ⟨⟨3, 2, true, [(0, 0, 7), (2, 1, 8)]⟩, [1, 2, 0], by decide, ⟨by decide, by decide, by decide⟩, by decide⟩

/-! ## C23, coordinate part -/

/-- **C23 (partial).**  Exact effect of `EliminateZeros(tol)`: entries with `|v| < tol` go, the others stay in
order.  Missing: entries with `|v| = tol` also stay, so the claimed effect differs (`C23_coo_false`). -/
theorem C23_coo_partial [LinearOrder R] [AddGroup R] (C : Coo R) (tol : R) (e : Int × Int × R) :
    (e ∈ (C.eliminateZeros tol).entries ↔ e ∈ C.entries ∧ tol ≤ |e.2.2|) ∧
    (C.eliminateZeros tol).entries.Sublist C.entries ∧
    (C.eliminateZeros tol).rows = C.rows ∧ (C.eliminateZeros tol).cols = C.cols ∧
    (C.eliminateZeros tol).sizeSet = C.sizeSet := by
  unfold Coo.eliminateZeros
  refine ⟨?_, List.filter_sublist, rfl, rfl, rfl⟩
  simp

/-- **C23.**  With the default tolerance 0 nothing is ever removed. -/
theorem C23_coo_default [LinearOrder R] [AddCommGroup R] [IsOrderedAddMonoid R] (C : Coo R) :
    C.eliminateZeros 0 = C := by
  unfold Coo.eliminateZeros
  cases C
  simp only [Coo.mk.injEq, true_and]
  rw [List.filter_eq_self]
  intro e _
  simp

/-- **C23.**  So the claim is false: a stored zero survives. -/
theorem C23_coo_false : ∃ C : Coo Int, C.WF ∧ ∃ e ∈ (C.eliminateZeros 0).entries, e.2.2 = 0 :=
  ⟨⟨1, 1, true, [(0, 0, 0)]⟩, by decide, (0, 0, 0), by decide, rfl⟩

/-- C23: tolerance 2 removes 1 and keeps 2 and -3. -/
example : ∃ C : Coo Int, C.WF ∧ (C.eliminateZeros 2).entries = [(0, 1, 2), (1, 1, -3)] :=
  ⟨⟨2, 2, true, [(0, 0, 1), (0, 1, 2), (1, 1, -3)]⟩, by decide, by decide⟩

end Linalg
