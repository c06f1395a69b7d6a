import Verif.Props.Lil
import Verif.Props.SparseDense
import Verif.Props.SparseVector
import Verif.Props.DenseBasic
import Verif.Props.ParMatrix
import Verif.Props.ParOffsets
import Verif.Props.ParVec
import Verif.Props.ParMult
import Verif.Props.SparseSolve
import Verif.Props.Plain
import Verif.Props.Random

/-!
# Further forms of functions: C02, C06, C18, C24, C34, C74, C85, C92, C101, C115
-/

namespace Linalg
open Cpp

variable {α R : Type}

/-! ## C24: the list-of-lists matrix -/

/-- **C24.**  `AddSym(i, j, v)` on a sized matrix: accepted exactly when both positions are inside; it adds `v` at `(i, j)` and, unless they are the
same, at `(j, i)`. -/
theorem C24_addSym [AddCommMonoid R] (L : Lil R) (hL : L.WF) (i j : Int) (v : R) :
    ((∃ L', L.addSym i j v = .ok L') ↔ (0 ≤ i ∧ i < L.rows ∧ 0 ≤ j ∧ j < L.cols) ∧ (i ≠ j → i < L.cols ∧ j < L.rows)) ∧
      ∀ L', L.addSym i j v = .ok L' → L'.WF ∧ L'.rows = L.rows ∧ L'.cols = L.cols ∧
        ∀ a b, L'.coef a b = L.coef a b + (if a = i ∧ b = j then v else 0) + (if i ≠ j ∧ a = j ∧ b = i then v else 0) := by
  constructor
  · constructor
    · rintro ⟨L', h⟩
      unfold Lil.addSym at h
      rw [bind_eq_ok] at h
      obtain ⟨M, h1, h2⟩ := h
      refine ⟨Lil.add_inv hL h1, fun hne => ?_⟩
      obtain ⟨m1, m2, m3, -⟩ := Lil.add_effect hL h1
      rw [if_pos hne] at h2
      have := Lil.add_inv m1 h2
      omega
    · rintro ⟨⟨h0, h1, h2, h3⟩, h4⟩
      obtain ⟨hlt, e⟩ := Lil.add_wf (v := v) hL h0 h1 h2 h3
      obtain ⟨m1, m2, m3, -⟩ := Lil.add_effect hL e
      unfold Lil.addSym
      rw [e, ok_bind]
      by_cases hne : i ≠ j
      · rw [if_pos hne]
        obtain ⟨h5, h6⟩ := h4 hne
        obtain ⟨_, e'⟩ := Lil.add_wf (v := v) m1 h2 (by rw [m2]; exact h6) h0 (by rw [m3]; exact h5)
        exact ⟨_, e'⟩
      · rw [if_neg hne]
        exact ⟨_, rfl⟩
  · intro L' h
    unfold Lil.addSym at h
    rw [bind_eq_ok] at h
    obtain ⟨M, h1, h2⟩ := h
    obtain ⟨m1, m2, m3, m4⟩ := Lil.add_effect hL h1
    by_cases hne : i ≠ j
    · rw [if_pos hne] at h2
      obtain ⟨n1, n2, n3, n4⟩ := Lil.add_effect m1 h2
      refine ⟨n1, n2.trans m2, n3.trans m3, fun a b => ?_⟩
      rw [n4, m4]
      congr 1
      · congr 1
        simp only [eq_comm]
      · simp only [hne, ne_eq, not_false_eq_true, true_and, eq_comm]
    · rw [if_neg hne] at h2
      obtain rfl := Except.ok.inj h2
      refine ⟨m1, m2, m3, fun a b => ?_⟩
      rw [m4, if_neg (c := i ≠ j ∧ a = j ∧ b = i) (fun h => hne h.1), add_zero]
      simp only [eq_comm]

/-- The sum over the columns below `q`, and in column `q` over the rows below `p`. -/
theorem Lil.addBlock_inner [AddCommMonoid R] (M : Lil R) (hM : M.WF) (rows : List Int) (c : Int) (B : Dense R) (q : Int)
    (hB : B.Is (rows.length : Int) B.cols B.entry) (q0 : 0 ≤ q) (q1 : q < B.cols)
    (hr : ∀ r ∈ rows, 0 ≤ r ∧ r < M.rows) (hc : 0 ≤ c ∧ c < M.cols) :
    ∃ M', forUp 0 (rows.length : Int) M (fun i L => do
        let row ← rd rows i
        let val ← B.get i q
        L.add row c val) = .ok M' ∧ M'.WF ∧ M'.rows = M.rows ∧ M'.cols = M.cols ∧
      ∀ a b, M'.coef a b = M.coef a b + ∑ p ∈ Finset.Ico 0 (rows.length : Int), if vecAt rows p = a ∧ c = b then B.entry p q else 0 := by
  obtain ⟨M', e, w, k1, k2, k3⟩ := forUp_inv (a := 0) (b := (rows.length : Int)) (by omega) (s := M)
    (f := fun i L => do
        let row ← rd rows i
        let val ← B.get i q
        L.add row c val)
    (fun p N => N.WF ∧ N.rows = M.rows ∧ N.cols = M.cols ∧
      ∀ a b, N.coef a b = M.coef a b + ∑ p ∈ Finset.Ico 0 p, if vecAt rows p = a ∧ c = b then B.entry p q else 0)
    ⟨hM, rfl, rfl, fun a b => by simp⟩ (by
      intro p N p0 p1 ⟨w, k1, k2, k3⟩
      have hm := hr _ (vecAt_mem p0 p1)
      obtain ⟨_, e⟩ := Lil.add_wf (v := B.entry p q) w hm.1 (by rw [k1]; exact hm.2) hc.1 (by rw [k2]; exact hc.2)
      refine ⟨_, by rw [rd_vecAt rows p0 p1, ok_bind, hB.get_eq p q p0 p1 q0 q1, ok_bind]; exact e, ?_⟩
      obtain ⟨n1, n2, n3, n4⟩ := Lil.add_effect w e
      refine ⟨n1, n2.trans k1, n3.trans k2, fun a b => ?_⟩
      rw [n4, k3, add_assoc, ← sum_Ico_succ _ p0])
  exact ⟨M', e, w, k1, k2, k3⟩
/-- **C24.**  `Add(rows, cols, values)` on a sized matrix, all positions inside: `values(p, q)` is added at `(rows[p], cols[q])` for all `p`, `q`.
`Add(indices, values)` is the case `rows = cols`. -/
theorem C24_addBlock [AddCommMonoid R] (L : Lil R) (hL : L.WF) (rows cols : List Int) (B : Dense R) (hB : B.WF)
    (hr : (rows.length : Int) = B.rows) (hc : (cols.length : Int) = B.cols)
    (hrow : ∀ r ∈ rows, 0 ≤ r ∧ r < L.rows) (hcol : ∀ c ∈ cols, 0 ≤ c ∧ c < L.cols) :
    ∃ L', L.addBlock rows cols B = .ok L' ∧ L'.WF ∧ L'.rows = L.rows ∧ L'.cols = L.cols ∧
      ∀ a b, L'.coef a b = L.coef a b + ∑ q ∈ Finset.Ico 0 B.cols, ∑ p ∈ Finset.Ico 0 B.rows,
        if vecAt rows p = a ∧ vecAt cols q = b then B.entry p q else 0 := by
  have hB' := hB.is_entry
  rw [← hr] at hB'
  unfold Lil.addBlock
  rw [cassert_true hr, cassert_true hc]
  simp only [ok_bind]
  rw [← hr]
  obtain ⟨L', e, w⟩ := forUp_inv (a := 0) (b := B.cols) (by omega) (s := L)
    (f := fun j L => do
      let col ← rd cols j
      forUp 0 (rows.length : Int) L (fun i L => do
        let row ← rd rows i
        let val ← B.get i j
        L.add row col val))
    (fun q N => N.WF ∧ N.rows = L.rows ∧ N.cols = L.cols ∧
      ∀ a b, N.coef a b = L.coef a b + ∑ q ∈ Finset.Ico 0 q, ∑ p ∈ Finset.Ico 0 (rows.length : Int),
        if vecAt rows p = a ∧ vecAt cols q = b then B.entry p q else 0)
    ⟨hL, rfl, rfl, fun a b => by simp⟩ (by
      intro q N q0 q1 ⟨w, k1, k2, k3⟩
      rw [rd_vecAt cols q0 (by omega), ok_bind]
      obtain ⟨M, e, m1, m2, m3, m4⟩ := Lil.addBlock_inner N w rows (vecAt cols q) B q hB' q0 q1 (by rw [k1]; exact hrow)
        (by rw [k2]; exact hcol _ (vecAt_mem q0 (by omega)))
      refine ⟨M, e, m1, m2.trans k1, m3.trans k2, fun a b => ?_⟩
      rw [m4, k3, add_assoc, ← sum_Ico_succ _ q0])
  exact ⟨L', e, w⟩

/-- **C24.**  Lists whose lengths are not the size of the values are refused. -/
theorem C24_addBlock_rejects (L : Lil α) (rows cols : List Int) (B : Dense α) (h : (rows.length : Int) ≠ B.rows ∨ (cols.length : Int) ≠ B.cols) :
    L.addBlock rows cols B = .error .assertFail := by
  unfold Lil.addBlock
  by_cases hr : (rows.length : Int) = B.rows
  · rw [cassert_true hr, ok_bind, cassert_false (by tauto)]; rfl
  · rw [cassert_false hr]; rfl

/-- **C24.**  `ToDense()`. -/
theorem C24_toDense_new [AddCommMonoid R] (L : Lil R) (hL : L.WF) : ∃ D, L.toDense = .ok D ∧ D.Is L.rows L.cols (fun i j => L.coef i j) :=
  C24_toDense L hL Dense.empty

/-- A block added twice over the same row: the values add up; symmetric adds. -/
example : let L : Lil Int := ⟨2, 3, true, [[], [(1, 4)]]⟩
    L.WF ∧ L.addBlock [1, 1] [1, 2] ⟨2, 2, [10, 20, 30, 40]⟩ = .ok ⟨2, 3, true, [[], [(2, 40), (2, 30), (1, 20), (1, 10), (1, 4)]]⟩ ∧
      L.addSym 0 1 7 = .ok ⟨2, 3, true, [[(1, 7)], [(0, 7), (1, 4)]]⟩ ∧ L.addSym 1 2 7 = .error .assertFail ∧
      L.toDense = .ok ⟨2, 3, [0, 0, 0, 4, 0, 0]⟩ := by decide +kernel

/-! ## C18, C34, C02, C06: forms that make their result -/

/-- **C18.**  `ToDense()`. -/
theorem C18_toDense_new [AddCommMonoid R] (C : Coo R) (hC : C.WF) :
    ∃ D A, C.toDense = .ok D ∧ C.toSparse = .ok A ∧ D.Is A.rows A.cols (fun i j => A.coef i j) :=
  C18_toDense C hC Dense.empty

/-- **C34.**  `GetSubMatrix(rows, cols)` with index lists. -/
theorem C34_getSubMatrixIdx [Zero α] (D : Dense α) (hD : D.WF) (rows cols : List Int)
    (hr : ∀ r ∈ rows, 0 ≤ r ∧ r < D.rows) (hc : ∀ c ∈ cols, 0 ≤ c ∧ c < D.cols) :
    ∃ E, D.getSubMatrixIdx rows cols = .ok E ∧ E.Is rows.length cols.length (fun i j => D.entry (vecAt rows i) (vecAt cols j)) :=
  C34_getSubMatrixIdxInto D Dense.empty hD rows cols hr hc

/-- **C02.**  `MultAT(x)` gives `A^T x`; a vector of another length is refused. -/
theorem C02_multATVec [NonUnitalNonAssocSemiring R] (A : Csr R) (hA : A.WF) (x : List R) :
    ((x.length : Int) = A.rows → ∃ y, A.multATVec x = .ok y ∧ (y.length : Int) = A.cols ∧ ∀ j, 0 ≤ j → j < A.cols → rd y j = .ok (A.tMulVec x j)) ∧
    ((x.length : Int) ≠ A.rows → A.multATVec x = .error .assertFail) := by
  have hc := hA.cols_nonneg
  unfold Csr.multATVec
  rw [mkVec_int hc, ok_bind]
  exact ⟨fun hx => C02_multAT A hA x _ hx (by simp; omega), fun hx => C02_multAT_rejects A x _ (Or.inl hx)⟩

/-- **C06 (partial).**  `TransposeDense()(i, j) = A(j, i)` whenever no row stores a column twice.  Missing: duplicates, as for `ToDense()`, see
`C06_transposeDense_false`. -/
theorem C06_transposeDense_partial [AddMonoid R] (A : Csr R) (hA : A.WF) (hd : A.NoDup) :
    ∃ E, A.transposeDense = .ok E ∧ E.Is A.cols A.rows (fun i j => A.coef j i) := by
  have hr := hA.rows_nonneg
  have hc := hA.cols_nonneg
  obtain ⟨m, hm⟩ : ∃ m : Nat, A.cols = m := ⟨A.cols.toNat, by omega⟩
  obtain ⟨n, hn⟩ : ∃ n : Nat, A.rows = n := ⟨A.rows.toNat, by omega⟩
  obtain ⟨Z, hZ⟩ : ∃ Z : Dense R, Dense.zeros A.cols A.rows = .ok Z := ⟨_, by rw [hm, hn]; exact Dense.zeros_ofFn m n⟩
  obtain ⟨E, h1, h2⟩ := C06_transposeDense_last A hA Z
  refine ⟨E, ?_, h2.congr (fun i j _ _ _ _ => lastAt_eq_coef (hd j) i)⟩
  unfold Csr.transposeDense
  rw [hZ, ok_bind]
  exact h1

/-- **C06.**  With a duplicated column `TransposeDense()` and `MultAT` disagree. -/
theorem C06_transposeDense_false :
    ∃ A : Csr Int, A.WF ∧ A.transposeDense = .ok ⟨1, 1, [3]⟩ ∧ A.coef 0 0 = 5 ∧ A.multATVec [1] = .ok [5] :=
  ⟨⟨1, 1, [0, 2], [0, 0], [2, 3]⟩, by decide, by decide, by decide, by decide⟩

/-- Runs of these forms. -/
example : let A : Csr Int := ⟨2, 3, [0, 2, 3], [0, 2, 1], [5, 6, 7]⟩
    A.WF ∧ A.multATVec [1, 10] = .ok [5, 70, 6] ∧ A.multATVec [1, 10, 1] = .error .assertFail ∧ A.transposeDense = .ok ⟨3, 2, [5, 0, 6, 0, 7, 0]⟩ ∧
      (⟨2, 3, false, [(0, 1, 4), (1, 0, 5), (0, 1, 6)]⟩ : Coo Int).toDense = .ok ⟨2, 2, [0, 5, 10, 0]⟩ ∧
      (⟨2, 3, [1, 2, 3, 4, 5, 6]⟩ : Dense Int).getSubMatrixIdx [1, 1] [2, 0, 2] = .ok ⟨2, 3, [6, 6, 2, 2, 6, 6]⟩ := by decide +kernel

/-! ## C74, C85: shares of a distributed matrix and vector -/

/-- **C74.**  `ParMatrix(comm, row_starts, col_starts, diag)`: accepted exactly when both starts are valid and the block has their size; then the
share has the block on the own columns and zeros elsewhere. -/
theorem C74_diag [AddCommMonoid R] (reorder : Csr R → Csr R) (hre : Reorders reorder) (rs cs : List Int) (diag : Csr R) (hd : diag.WF) :
    ((∃ M, ParMat.newDiag reorder rs cs diag = .ok M) ↔
      ∃ r0 r1 rn c0 c1 cn, IsStarts rs r0 r1 rn ∧ IsStarts cs c0 c1 cn ∧ diag.rows = r1 - r0 ∧ diag.cols = c1 - c0) ∧
    ∀ M, ParMat.newDiag reorder rs cs diag = .ok M → ∃ r0 r1 rn c0 c1 cn, M.WF r0 r1 rn c0 c1 cn ∧ M.rowStarts = rs ∧ M.colStarts = cs ∧
      ∀ i c, M.coef i c = if c0 ≤ c ∧ c < c1 then diag.coef i (c - c0) else 0 := by
  constructor
  · unfold ParMat.newDiag
    rw [C74_accepts]
    constructor
    · rintro ⟨r0, r1, rn, c0, c1, cn, h1, h2, h3, h4, -⟩
      exact ⟨r0, r1, rn, c0, c1, cn, h1, h2, h3, h4⟩
    · rintro ⟨r0, r1, rn, c0, c1, cn, h1, h2, h3, h4⟩
      exact ⟨r0, r1, rn, c0, c1, cn, h1, h2, h3, h4, Or.inl ⟨rfl, rfl, rfl⟩, List.Pairwise.nil, by simp, by simp⟩
  · intro M h
    obtain ⟨r0, r1, rn, c0, c1, cn, w, h1, h2, -, h4⟩ := C74_result reorder hre rs cs diag Csr.empty hd
      ⟨le_rfl, le_rfl, by simp [Csr.empty], rfl, by simp [Csr.empty], rfl, rfl, by simp [Csr.empty]⟩ [] M h
    exact ⟨r0, r1, rn, c0, c1, cn, w, h1, h2, fun i c => by rw [h4]; simp⟩

/-- What a successful `mapM` did at each place. -/
theorem Par.mapM_get {β γ : Type} {l : List β} {f : β → Res γ} {r : List γ} (h : l.mapM f = .ok r) :
    r.length = l.length ∧ ∀ (p : Nat) (hp : p < l.length) (hp' : p < r.length), f l[p] = .ok r[p] := by
  induction l generalizing r with
  | nil =>
    rw [List.mapM_nil] at h
    obtain rfl := Except.ok.inj h
    exact ⟨rfl, fun p hp => absurd hp (by simp)⟩
  | cons a t ih =>
    rw [List.mapM_cons, bind_eq_ok] at h
    obtain ⟨c, hc, h⟩ := h
    rw [bind_eq_ok] at h
    obtain ⟨cs, hcs, h⟩ := h
    obtain rfl := Except.ok.inj h
    obtain ⟨h1, h2⟩ := ih hcs
    refine ⟨by simp [h1], fun p hp hp' => ?_⟩
    cases p with
    | zero => simpa using hc
    | succ p => simpa using h2 p (by simpa using hp) (by simpa using hp')

theorem ParMat.init_eq_new (reorder : Csr α → Csr α) (a b r0 r1 rn c0 c1 cn : Int) (diag offd : Csr α) (cm : List Int) (hr : r0 ≤ r1) (hc : c0 ≤ c1) :
    ParMat.init reorder ⟨a, b, [r0, r1, rn], [c0, c1, cn], diag, offd, cm⟩ = ParMat.new reorder [r0, r1, rn] [c0, c1, cn] diag offd cm := by
  have q0 : ∀ a b c : Int, rd [a, b, c] 0 = .ok a := fun _ _ _ => rfl
  have q1 : ∀ a b c : Int, rd [a, b, c] 1 = .ok b := fun _ _ _ => rfl
  unfold ParMat.new
  simp only [q0, q1, ok_bind]
  rw [cassert_true (by omega), cassert_true (by omega), cassert_true (by simp), cassert_true (by simp)]
  rfl

/-- **C74.**  `ParMatrix(comm, diag, offd, col_map)` on all processes: the starts are the numbers of rows and columns of the diagonal blocks of the
processes before.  It is accepted exactly when on every process the other block has the rows of the diagonal block and a column for each place of the
map (or is an empty 0×0 matrix with an empty map), and the map is strictly ascending, within the columns of all processes and outside the own ones. -/
theorem C74_all [AddCommMonoid R] (reorder : Csr R → Csr R) (hre : Reorders reorder) (blocks : List (Csr R × Csr R × List Int))
    (hb : ∀ b ∈ blocks, b.1.WF ∧ b.2.1.WF) :
    ((∃ Ms, ParMat.newAll reorder blocks = .ok Ms) ↔ ∀ (r : Nat) (hr : r < blocks.length),
      let c0 := ((blocks.take r).map (fun b => b.1.cols)).sum
      let cm := blocks[r].2.2
      ((blocks[r].2.1.rows = 0 ∧ blocks[r].2.1.cols = 0 ∧ cm = []) ∨ (blocks[r].2.1.rows = blocks[r].1.rows ∧ blocks[r].2.1.cols = (cm.length : Int))) ∧
        cm.Pairwise (· < ·) ∧ (∀ c ∈ cm, 0 ≤ c ∧ c < (blocks.map (fun b => b.1.cols)).sum) ∧ ∀ c ∈ cm, c < c0 ∨ c0 + blocks[r].1.cols ≤ c) ∧
    ∀ Ms, ParMat.newAll reorder blocks = .ok Ms → ∃ hl : Ms.length = blocks.length, ∀ (r : Nat) (hr : r < blocks.length),
      let r0 := ((blocks.take r).map (fun b => b.1.rows)).sum
      let c0 := ((blocks.take r).map (fun b => b.1.cols)).sum
      (Ms[r]'(by omega)).WF r0 (r0 + blocks[r].1.rows) (blocks.map (fun b => b.1.rows)).sum
          c0 (c0 + blocks[r].1.cols) (blocks.map (fun b => b.1.cols)).sum ∧
        (Ms[r]'(by omega)).colMap = blocks[r].2.2 ∧
        ∀ i c, (Ms[r]'(by omega)).coef i c = (if c0 ≤ c ∧ c < c0 + blocks[r].1.cols then blocks[r].1.coef i (c - c0) else 0)
          + ∑ k ∈ Finset.Ico (0 : Int) blocks[r].2.2.length, if vecAt blocks[r].2.2 k = c then blocks[r].2.1.coef i k else 0 := by
  obtain ⟨out, o1, o2, o3⟩ := Par.C63_offsets (blocks.map (fun b => [b.1.rows, b.1.cols])) 2 (by
    intro s hs
    obtain ⟨b, -, rfl⟩ := List.mem_map.mp hs
    rfl)
  rw [List.length_map] at o2
  let R0 : Nat → Int := fun r => ((blocks.take r).map (fun b => b.1.rows)).sum
  let C0 : Nat → Int := fun r => ((blocks.take r).map (fun b => b.1.cols)).sum
  let RN : Int := (blocks.map (fun b => b.1.rows)).sum
  let CN : Int := (blocks.map (fun b => b.1.cols)).sum
  have nonnegSum : ∀ (g : Csr R × Csr R × List Int → Int), (∀ b ∈ blocks, 0 ≤ g b) → ∀ r (hr : r < blocks.length),
      0 ≤ ((blocks.take r).map g).sum ∧ ((blocks.take r).map g).sum + g blocks[r] ≤ (blocks.map g).sum := by
    intro g hg r hr
    have nn : ∀ l : List (Csr R × Csr R × List Int), (∀ b ∈ l, 0 ≤ g b) → 0 ≤ (l.map g).sum := by
      intro l hl
      apply List.sum_nonneg
      intro x hx
      obtain ⟨b, hb, rfl⟩ := List.mem_map.mp hx
      exact hl b hb
    refine ⟨nn _ (fun b hb => hg b (List.mem_of_mem_take hb)), ?_⟩
    have e : blocks = blocks.take r ++ blocks[r] :: blocks.drop (r + 1) := by
      rw [List.getElem_cons_drop, List.take_append_drop]
    have := nn (blocks.drop (r + 1)) (fun b hb => hg b (List.mem_of_mem_drop hb))
    have e2 : (blocks.map g).sum = ((blocks.take r).map g).sum + (g blocks[r] + ((blocks.drop (r + 1)).map g).sum) := by
      conv_lhs => rw [e]
      rw [List.map_append, List.sum_append, List.map_cons, List.sum_cons]
    omega
  have hR := fun r hr => nonnegSum (fun b => b.1.rows) (fun b h => (hb b h).1.rows_nonneg) r hr
  have hC := fun r hr => nonnegSum (fun b => b.1.cols) (fun b h => (hb b h).1.cols_nonneg) r hr
  have hlen : (blocks.zip out).length = blocks.length := by rw [List.length_zip, o2, Nat.min_self]
  have step : ∀ r (hr : r < blocks.length), (fun p : (Csr R × Csr R × List Int) × List (List Int) => (do
      cassert (p.2.length = 2)
      let r ← rd p.2 0
      let c ← rd p.2 1
      ParMat.init reorder ⟨0, 0, r, c, p.1.1, p.1.2.1, p.1.2.2⟩ : Res (ParMat R))) ((blocks.zip out)[r]'(by omega))
      = ParMat.new reorder [R0 r, R0 r + blocks[r].1.rows, RN] [C0 r, C0 r + blocks[r].1.cols, CN] blocks[r].1 blocks[r].2.1 blocks[r].2.2 := by
    intro r hr
    obtain ⟨p1, p2⟩ := o3 r (by simpa using hr)
    have g : out.getD r [] = out[r]'(by omega) := by
      rw [List.getD_eq_getElem?_getD, List.getElem?_eq_getElem (by omega)]; rfl
    rw [g] at p1 p2
    have q0 := p2 0 (by omega)
    have q1 := p2 1 (by omega)
    simp only [List.getElem_zip]
    obtain ⟨x, y, hxy⟩ : ∃ x y, out[r]'(by omega) = [x, y] := by
      generalize out[r]'(by omega) = l at p1
      match l, p1 with
      | [x, y], _ => exact ⟨x, y, rfl⟩
    rw [hxy] at q0 q1 ⊢
    have hx : x = [R0 r, R0 r + blocks[r].1.rows, RN] := by
      simpa [R0, RN, Function.comp_def, ← List.map_take] using q0
    have hy : y = [C0 r, C0 r + blocks[r].1.cols, CN] := by
      simpa [C0, CN, Function.comp_def, ← List.map_take] using q1
    rw [cassert_true (by rfl), ok_bind]
    change (ParMat.init reorder ⟨0, 0, x, y, blocks[r].1, blocks[r].2.1, blocks[r].2.2⟩ : Res (ParMat R)) = _
    rw [hx, hy]
    have w := hb _ (List.getElem_mem hr)
    exact ParMat.init_eq_new reorder 0 0 _ _ _ _ _ _ _ _ _ (by have := w.1.rows_nonneg; omega) (by have := w.1.cols_nonneg; omega)
  have st : ∀ r (hr : r < blocks.length), IsStarts [R0 r, R0 r + blocks[r].1.rows, RN] (R0 r) (R0 r + blocks[r].1.rows) RN ∧
      IsStarts [C0 r, C0 r + blocks[r].1.cols, CN] (C0 r) (C0 r + blocks[r].1.cols) CN := by
    intro r hr
    have w := (hb _ (List.getElem_mem hr)).1
    have a := w.rows_nonneg
    have b := w.cols_nonneg
    exact ⟨⟨rfl, (hR r hr).1, by omega, (hR r hr).2⟩, ⟨rfl, (hC r hr).1, by omega, (hC r hr).2⟩⟩
  have uniq : ∀ {a b c a' b' c' : Int}, IsStarts [a, b, c] a' b' c' → a' = a ∧ b' = b ∧ c' = c := by
    intro a b c a' b' c' h
    have := h.eq
    simp only [List.cons.injEq, and_true] at this
    exact ⟨this.1.symm, this.2.1.symm, this.2.2.symm⟩
  have key : ∀ r (hr : r < blocks.length),
      (∃ M, ParMat.new reorder [R0 r, R0 r + blocks[r].1.rows, RN] [C0 r, C0 r + blocks[r].1.cols, CN] blocks[r].1 blocks[r].2.1 blocks[r].2.2 = .ok M) ↔
      (((blocks[r].2.1.rows = 0 ∧ blocks[r].2.1.cols = 0 ∧ blocks[r].2.2 = []) ∨
        (blocks[r].2.1.rows = blocks[r].1.rows ∧ blocks[r].2.1.cols = (blocks[r].2.2.length : Int))) ∧
        blocks[r].2.2.Pairwise (· < ·) ∧ (∀ c ∈ blocks[r].2.2, 0 ≤ c ∧ c < CN) ∧ ∀ c ∈ blocks[r].2.2, c < C0 r ∨ C0 r + blocks[r].1.cols ≤ c) := by
    intro r hr
    rw [C74_accepts]
    constructor
    · rintro ⟨r0, r1, rn, c0, c1, cn, s1, s2, _, _, h3, h4, h5, h6⟩
      obtain ⟨rfl, rfl, rfl⟩ := uniq s1
      obtain ⟨rfl, rfl, rfl⟩ := uniq s2
      refine ⟨?_, h4, h5, h6⟩
      rcases h3 with h | ⟨h, h'⟩
      · exact Or.inl h
      · exact Or.inr ⟨by omega, h'⟩
    · rintro ⟨h3, h4, h5, h6⟩
      refine ⟨_, _, _, _, _, _, (st r hr).1, (st r hr).2, by omega, by omega, ?_, h4, h5, h6⟩
      rcases h3 with h | ⟨h, h'⟩
      · exact Or.inl h
      · exact Or.inr ⟨by omega, h'⟩
  unfold ParMat.newAll
  rw [o1, ok_bind]
  constructor
  · constructor
    · rintro ⟨Ms, h⟩ r hr
      obtain ⟨l1, l2⟩ := Par.mapM_get h
      have := l2 r (by omega) (by omega)
      exact (key r hr).mp ⟨_, (step r hr).symm.trans this⟩
    · intro h
      obtain ⟨Ms, e, -⟩ := Par.mapM_exists (blocks.zip out) (fun p : (Csr R × Csr R × List Int) × List (List Int) => (do
        cassert (p.2.length = 2)
        let r ← rd p.2 0
        let c ← rd p.2 1
        ParMat.init reorder ⟨0, 0, r, c, p.1.1, p.1.2.1, p.1.2.2⟩ : Res (ParMat R))) (fun _ _ => True) (fun r hr => by
        have hr' : r < blocks.length := by omega
        obtain ⟨M, hM⟩ := (key r hr').mpr (h r hr')
        exact ⟨M, (step r hr').trans hM, trivial⟩)
      exact ⟨Ms, e⟩
  · intro Ms h
    obtain ⟨l1, l2⟩ := Par.mapM_get h
    refine ⟨by omega, fun r hr => ?_⟩
    have e := l2 r (by omega) (by omega)
    replace e := (step r hr).symm.trans e
    have w := hb _ (List.getElem_mem hr)
    obtain ⟨r0, r1, rn, c0, c1, cn, k1, k2, k3, k4, k5⟩ := C74_result reorder hre _ _ _ _ w.1 w.2 _ _ e
    have s1 := k1.row_starts
    have s2 := k1.col_starts
    rw [k2] at s1
    rw [k3] at s2
    obtain ⟨rfl, rfl, rfl⟩ := uniq s1
    obtain ⟨rfl, rfl, rfl⟩ := uniq s2
    exact ⟨k1, k4, k5⟩

/-- Two processes, each with a map onto a column of the other; a map onto an own column is refused. -/
example : let d : Csr Int := ⟨1, 1, [0, 1], [0], [9]⟩
    let o : Csr Int := ⟨1, 1, [0, 1], [0], [3]⟩
    ParMat.newAll id [(d, o, [1]), (d, Csr.empty, [])] = .ok [⟨1, 1, [0, 1, 2], [0, 1, 2], d, o, [1]⟩, ⟨1, 1, [1, 2, 2], [1, 2, 2], d, ⟨1, 0, [0, 0], [], []⟩, []⟩] ∧
      (ParMat.newAll id [(d, o, [0]), (d, Csr.empty, [])]).isOk = false ∧ (ParMat.newAll id [(d, o, [2]), (d, Csr.empty, [])]).isOk = false ∧
      (ParMat.newDiag id [1, 2, 2] [1, 2, 2] d).isOk = true ∧ (ParMat.newDiag id [0, 2, 2] [1, 2, 2] d).isOk = false := by decide +kernel

/-- **C85 (partial).**  `ParVector(comm, part)` is a vector of zeros, under the condition of `C85_ofVal_partial`. -/
theorem C85_ofPart_partial [Zero α] (part : List Int) (first last total : Int) (h : IsStarts part first last total) (hf : first < total) :
    ParVec.ofPart part = .ok (⟨List.replicate (last - first).toNat (0 : α), part, total⟩ : ParVec α) :=
  C85_ofVal_partial 0 part first last total h hf

/-- Zeros on a process that owns two places. -/
example : IsStarts [1, 3, 4] 1 3 4 ∧ ParVec.ofPart [1, 3, 4] = .ok (⟨[0, 0], [1, 3, 4], 4⟩ : ParVec Int) := ⟨⟨rfl, by omega, by omega, by omega⟩, rfl⟩

/-! ## C92, C101 -/

/-- **C92.**  A solver made by the default constructor takes and gives the empty vector, refuses all others, and may be destroyed. -/
theorem C92_default {S N : Type} [CommRing R] (U : Umfpack R S N) (F : SparseSolver.Factors N) (b out : List R) :
    (b = [] ∧ out = [] → SparseSolver.empty.mult U F b out = .ok [] ∧ SparseSolver.empty.multAT U F b out = .ok []) ∧
    (b ≠ [] ∨ out ≠ [] → SparseSolver.empty.mult U F b out = .error .assertFail ∧ SparseSolver.empty.multAT U F b out = .error .assertFail) ∧
    SparseSolver.destroy F (SparseSolver.empty : SparseSolver R) = .ok F := by
  refine ⟨?_, ?_, rfl⟩
  · rintro ⟨rfl, rfl⟩
    exact ⟨rfl, rfl⟩
  · intro h
    have h' : (b.length : Int) ≠ 0 ∨ (out.length : Int) ≠ 0 := by
      rcases h with h | h
      · exact Or.inl (by have := List.length_pos_iff.mpr h; omega)
      · exact Or.inr (by have := List.length_pos_iff.mpr h; omega)
    have c := C92_sizes U F SparseSolver.empty b out
    exact ⟨c.1 h', c.2 h'⟩

/-- A use: `b` and `out` empty or not. -/
example : (SparseSolver.empty : SparseSolver Int).mult (⟨fun _ _ _ _ _ => (0, 0), fun _ _ _ _ => (0, 0), fun _ _ _ _ b _ => (b, 0)⟩ : Umfpack Int Nat Nat) [] [] [] = .ok [] ∧
    (SparseSolver.empty : SparseSolver Int).mult (⟨fun _ _ _ _ _ => (0, 0), fun _ _ _ _ => (0, 0), fun _ _ _ _ b _ => (b, 0)⟩ : Umfpack Int Nat Nat) [] [1] [1]
      = .error .assertFail := by decide +kernel

/-- **C101**: `BlockVector()` has no block to read; `BlockVector(view, offsets)` has the blocks the offsets say if they tile the view; `SetSize` of the
vector leaves the offsets alone, so that after making it shorter a block reaches past the end. -/
theorem C101_blocks_other [Zero α] (v : List α) (offsets : List Int) (b : BlockVec α) (n : Int) :
    ((∀ k, 0 ≤ k → (BlockVec.empty : BlockVec α).getBlock k = .error .assertFail) ∧ Tiles (BlockVec.empty : BlockVec α).elems (BlockVec.empty : BlockVec α).offsets) ∧
    (Tiles v offsets → ∃ L, (List.range (offsets.length - 1)).mapM (fun (k : Nat) => (BlockVec.ofView v offsets).getBlock k) = .ok L ∧ L.flatten = v) ∧
    (Tiles b.elems b.offsets → 0 ≤ n → n < b.elems.length → ∃ b', b.setSize n = .ok b' ∧
      ∃ k : Nat, (k : Int) < (b.offsets.length : Int) - 1 ∧ b'.getBlock k = .error .outOfBounds) := by
  refine ⟨⟨fun k hk => ?_, rfl, rfl, List.pairwise_singleton _ _⟩, fun h => C101_blocks (BlockVec.ofView v offsets) h, fun h h0 h1 => ?_⟩
  · unfold BlockVec.getBlock BlockVec.empty
    rw [cassert_false (by simp; omega)]; rfl
  · obtain ⟨N, rfl⟩ : ∃ N : Nat, n = N := ⟨n.toNat, by omega⟩
    have e : b.setSize (N : Int) = .ok (b.assignVec (resize b.elems N 0)) := by
      unfold BlockVec.setSize BlockVec.assignVec Vec.setSize
      simp [show N ≠ b.elems.length by omega]
    obtain ⟨k, k1, k2⟩ := C101_blocks_stale b h (resize b.elems N 0) (by unfold resize; simp; omega)
    exact ⟨_, e, k, k1, k2⟩

/-- A block vector made shorter. -/
example : Tiles [(1 : Int), 2, 3] [0, 1, 3] ∧ (BlockVec.ofView [(1 : Int), 2, 3] [0, 1, 3]).getBlock 1 = .ok [2, 3] ∧
    ((BlockVec.ofView [(1 : Int), 2, 3] [0, 1, 3]).setSize 2).toOption.map (fun b => b.getBlock 1) = some (.error .outOfBounds) :=
  ⟨⟨rfl, rfl, by decide⟩, by decide +kernel, by decide +kernel⟩

namespace Example
open Rng
variable {σ K : Type} [Field K] [LinearOrder K] [IsStrictOrderedRing K]

/-- **C115.**  `time_LU` runs through all its sizes exactly when each of the random matrices has a factorisation that the elimination can find; it
stops with a division by zero otherwise. -/
theorem C115_timeLU (R : Rng σ K) (hR : R.Within) (dev : Int → σ) :
    ((∀ n ∈ sizesFrom 2000 10, ∃ l u, UnitLower n l ∧ Upper n u ∧ IsProd n (fun i j => R.number (-1) 1 (dev n) (i + j * n).toNat) l u ∧
        ∀ i, 0 ≤ i → i + 1 < n → u i i ≠ 0) → timeLu R dev = .ok ()) ∧
    ((∃ n ∈ sizesFrom 2000 10, ¬ ∃ l u, UnitLower n l ∧ Upper n u ∧ IsProd n (fun i j => R.number (-1) 1 (dev n) (i + j * n).toNat) l u ∧
        ∀ i, 0 ≤ i → i + 1 < n → u i i ≠ 0) → timeLu R dev = .error .divZero) := by
  have hpos : ∀ (k : Nat) (i : Int), 10 ≤ i → ∀ j ∈ sizesFrom k i, 10 ≤ j := by
    intro k
    induction k with
    | zero => intro i _ j hj; simp [sizesFrom] at hj
    | succ k ih =>
      intro i hi j hj
      unfold sizesFrom at hj
      split at hj
      · rcases List.mem_cons.mp hj with rfl | hj
        · exact hi
        · exact ih _ (by omega) j hj
      · simp at hj
  have hall : ∀ n ∈ sizesFrom 2000 10, 0 ≤ n := fun n hn => by have := hpos 2000 10 (le_refl _) n hn; omega
  unfold timeLu
  generalize sizesFrom 2000 10 = l at hall
  induction l with
  | nil => exact ⟨fun _ => rfl, fun ⟨n, hn, _⟩ => absurd hn (by simp)⟩
  | cons n t ih =>
    obtain ⟨ih1, ih2⟩ := ih (fun m hm => hall m (by simp [hm]))
    have e : (n :: t).forM (fun i => do
        let _ ← testLu R (dev i) i
        .ok () : Int → Res PUnit) = (testLu R (dev n) n >>= fun _ => t.forM (fun i => do
        let _ ← testLu R (dev i) i
        .ok ())) := by
      change ((testLu R (dev n) n >>= fun _ => .ok ()) >>= fun _ => t.forM _) = _
      cases testLu R (dev n) n <;> rfl
    constructor
    · intro h
      rw [e]
      rcases C115_testLU R hR (dev n) n (hall n (by simp)) with ⟨l, u, _, _, _, _, L, U, h1, _⟩ | ⟨hn, _⟩
      · rw [h1, ok_bind]
        exact ih1 (fun m hm => h m (by simp [hm]))
      · exact absurd (h n (by simp)) hn
    · rintro ⟨m, hm, hno⟩
      rw [e]
      rcases C115_testLU R hR (dev n) n (hall n (by simp)) with ⟨l, u, a, b, c, d, L, U, h1, _⟩ | ⟨_, h1⟩
      · rw [h1, ok_bind]
        refine ih2 ⟨m, ?_, hno⟩
        rcases List.mem_cons.mp hm with rfl | hm
        · exact absurd ⟨l, u, a, b, c, d⟩ hno
        · exact hm
      · rw [h1]; rfl

end Example

end Linalg
