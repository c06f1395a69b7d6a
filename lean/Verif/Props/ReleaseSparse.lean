import Verif.Model.ReleaseSparse
import Verif.Proof.Release
import Verif.Props.ReleaseDense
import Verif.Props.SparseMult
import Verif.Props.SparseDense
import Verif.Props.SparseMore
import Verif.Props.SparseUpdate

/-! # C140: products and updates of sparse matrices without assertions -/

namespace Linalg
open Cpp

variable {α β σ R : Type}

theorem Rel.ofArrays_debug (p ix : List Int) (u : List α) (i j : Int) : Rel.ofArrays .debug p ix u i j = Csr.ofArrays p ix u i j := by
  unfold Rel.ofArrays Csr.ofArrays Build.firstPtr
  simp only [bind_assoc]
  rfl

theorem Rel.multSparseMarker_debug [Zero α] [Add α] [Mul α] (A B : Csr α) (m : List Int) :
    Rel.multSparseMarker .debug A B m = A.multSparseMarker B m := by
  unfold Rel.multSparseMarker Csr.multSparseMarker
  simp only [Rel.ofArrays_debug]
  rfl

theorem Rel.multSparse_debug [Zero α] [Add α] [Mul α] (A B : Csr α) : Rel.multSparse .debug A B = A.multSparse B := by
  unfold Rel.multSparse Csr.multSparse
  simp only [Rel.multSparseMarker_debug]

/-- **C140.**  With assertions the functions are those of the other models. -/
theorem C140_debug :
    (∀ [Zero α] [Add α] [Mul α] (A B : Csr α) (m : List Int), Rel.multSparseMarker .debug A B m = A.multSparseMarker B m ∧
      Rel.multSparse .debug A B = A.multSparse B) ∧
    (∀ [Zero α] [Add α] [Mul α] (A : Csr α) (B C : Dense α), Rel.multDense .debug A B C = A.multDenseInto B C ∧
      Rel.multCTDense .debug A B C = A.multCTDenseInto B C ∧ Rel.multATDense .debug A B C = A.multATDenseInto B C) ∧
    (∀ [Zero α] (A : Csr α) (k : Int), Rel.getDiag .debug A = A.getDiag ∧ Rel.eliminateRow .debug A k = A.eliminateRow k ∧
      Rel.eliminateCol .debug A k = A.eliminateCol k) ∧
    (∀ [Add α] (A : Csr α) (d : List α), Rel.addDiag .debug A d = A.addDiag d) ∧
    (∀ [Mul α] (A : Csr α) (d : List α), Rel.scaleRows .debug A d = A.scaleRows d ∧ Rel.scaleCols .debug A d = A.scaleCols d) ∧
    ∀ (A : Csr α) (p : List Int), Rel.permuteCols .debug A p = A.permuteCols p :=
  ⟨fun A B m => ⟨Rel.multSparseMarker_debug A B m, Rel.multSparse_debug A B⟩, fun _ _ _ => ⟨rfl, rfl, rfl⟩, fun _ _ => ⟨rfl, rfl, rfl⟩, fun _ _ => rfl, fun _ _ => ⟨rfl, rfl⟩, fun _ _ => rfl⟩

theorem Refines.dput (D : Dense α) (i j : Int) (x : α) : Refines (Rel.dput .debug D i j x) (Rel.dput .release D i j x) :=
  (Refines.dcheck D i j).bind fun _ => Refines.refl _

theorem Refines.multSparseMarker [Zero α] [Add α] [Mul α] (A B : Csr α) (m : List Int) :
    Refines (Rel.multSparseMarker .debug A B m) (Rel.multSparseMarker .release A B m) :=
  (Refines.assert _).bind fun _ => (Refines.refl _).bind fun _ => (Refines.refl _).bind fun _ => (Refines.refl _).bind fun _ =>
    (Refines.refl _).bind fun _ => (Refines.refl _).bind fun _ => (Refines.refl _).bind fun _ => Refines.ofArrays _ _ _ _ _

theorem Refines.denseLoop [Zero α] [Add α] [Mul α] (A : Csr α) (B D : Dense α) {p q : Int → Int → α → Dense α → Res (Dense α)}
    (h : ∀ i k v D, Refines (p i k v D) (q i k v D)) : Refines (Rel.denseLoop .debug A B p D) (Rel.denseLoop .release A B q D) :=
  Refines.forUp fun k _ => Refines.forUp fun i _ =>
    (Refines.forRow fun _ _ => (Refines.refl _).bind fun _ => (Refines.refl _).bind fun c => (Refines.dget B c k).bind fun _ => Refines.refl _).bind
      fun v => h i k v _

/-- **C140.**  A call that passes the assertions gives the same result when they are compiled away. -/
theorem C140_same :
    (∀ [Zero α] [Add α] [Mul α] (A B : Csr α) (m : List Int), Refines (A.multSparseMarker B m) (Rel.multSparseMarker .release A B m) ∧
      Refines (A.multSparse B) (Rel.multSparse .release A B)) ∧
    (∀ [Zero α] [Add α] [Mul α] (A : Csr α) (B C : Dense α), Refines (A.multDenseInto B C) (Rel.multDense .release A B C) ∧
      Refines (A.multCTDenseInto B C) (Rel.multCTDense .release A B C) ∧ Refines (A.multATDenseInto B C) (Rel.multATDense .release A B C)) ∧
    (∀ [Zero α] (A : Csr α) (k : Int), Refines A.getDiag (Rel.getDiag .release A) ∧ Refines (A.eliminateRow k) (Rel.eliminateRow .release A k) ∧
      Refines (A.eliminateCol k) (Rel.eliminateCol .release A k)) ∧
    (∀ [Add α] (A : Csr α) (d : List α), Refines (A.addDiag d) (Rel.addDiag .release A d)) ∧
    (∀ [Mul α] (A : Csr α) (d : List α), Refines (A.scaleRows d) (Rel.scaleRows .release A d) ∧
      Refines (A.scaleCols d) (Rel.scaleCols .release A d)) ∧
    ∀ (A : Csr α) (p : List Int), Refines (A.permuteCols p) (Rel.permuteCols .release A p) := by
  refine ⟨fun A B m => ⟨?_, ?_⟩, fun A B C => ⟨?_, ?_, ?_⟩,
    fun A k => ⟨?_, ?_, ?_⟩, fun A d => ?_, fun A d => ⟨?_, ?_⟩, fun A p => ?_⟩
  · rw [← Rel.multSparseMarker_debug]
    exact Refines.multSparseMarker A B m
  · rw [← Rel.multSparse_debug]
    exact (Refines.refl _).bind fun m => Refines.multSparseMarker A B m
  · exact (Refines.assert _).bind fun _ => (Refines.refl _).bind fun _ => Refines.denseLoop A B _ fun _ _ _ _ => Refines.dput _ _ _ _
  · exact (Refines.assert _).bind fun _ => (Refines.refl _).bind fun _ => Refines.denseLoop A B _ fun _ _ _ _ => Refines.dput _ _ _ _
  · exact (Refines.assert _).bind fun _ => (Refines.refl _).bind fun _ => Refines.forUp fun k _ => Refines.forUp fun i _ => Refines.forRow fun _ _ =>
      (Refines.refl _).bind fun _ => (Refines.refl _).bind fun _ => (Refines.dget B i k).bind fun _ => (Refines.dget _ _ k).bind fun _ =>
        Refines.dput _ _ _ _
  · exact (Refines.assert _).bind fun _ => Refines.refl _
  · exact (Refines.assert _).bind fun _ => (Refines.assert _).bind fun _ => Refines.refl _
  · exact (Refines.assert _).bind fun _ => (Refines.assert _).bind fun _ => Refines.refl _
  · exact (Refines.assert _).bind fun _ => Refines.refl _
  · exact (Refines.assert _).bind fun _ => Refines.refl _
  · exact (Refines.assert _).bind fun _ => Refines.refl _
  · exact (Refines.assert _).bind fun _ => Refines.bind (Refines.forUp fun _ _ => (Refines.refl _).bind fun _ => (Refines.refl _).bind fun _ =>
      (Refines.assert _).bind fun _ => (Refines.assert _).bind fun _ => Refines.refl _) fun _ => Refines.refl _

/-! ## Lemmas -/

theorem foldlM_keep {l : List β} {f : σ → β → Res σ} (I : σ → Prop) {s : σ} (h0 : I s)
    (h : ∀ s, ∀ b ∈ l, I s → ∃ s', f s b = .ok s' ∧ I s') : ∃ s', l.foldlM f s = .ok s' ∧ I s' := by
  induction l generalizing s with
  | nil => exact ⟨s, rfl, h0⟩
  | cons b l ih =>
    obtain ⟨s', h1, h2⟩ := h s b (by simp) h0
    rw [List.foldlM_cons, h1, ok_bind]
    exact ih h2 fun s c hc => h s c (by simp [hc])

/-- The same matrix with another number of columns. -/
theorem Csr.WF.withCols {A : Csr α} (hA : A.WF) {n : Int} (hn : 0 ≤ n) (h : ∀ c ∈ A.indices, c < n) : ({ A with cols := n } : Csr α).WF :=
  ⟨hA.rows_nonneg, hn, hA.indptr_len, hA.indptr_first, hA.indptr_mono, hA.indptr_last, hA.indices_len,
    fun c hc => ⟨(hA.cols_ok c hc).1, h c hc⟩⟩

theorem coef_withCols [AddMonoid R] (A : Csr R) (n i j : Int) : ({ A with cols := n } : Csr R).coef i j = A.coef i j := rfl

theorem bad_index {n m : Int} {rs : List (List (Int × α))} (h : ¬ ∀ c ∈ (Csr.ofRows n rs).indices, c < m) :
    ∃ (k : Nat) (hk : k < rs.length), ∃ e ∈ rs[k], m ≤ e.1 := by
  push Not at h
  obtain ⟨c, hc, hm⟩ := h
  obtain ⟨r, hr, e, he, rfl⟩ := mem_indices_ofRows.mp hc
  obtain ⟨k, hk, rfl⟩ := List.getElem_of_mem hr
  exact ⟨k, hk, e, he, hm⟩

theorem forRow_oob {n : Int} {rs : List (List (Int × α))} {l : Int} (h : l < 0 ∨ (rs.length : Int) ≤ l) (s : σ) (f : Int → σ → Res σ) :
    (Csr.ofRows n rs).forRow l s f = .error .outOfBounds := by
  have hlen : ((Csr.ofRows n rs).indptr.length : Int) = rs.length + 1 := by simp [Csr.ofRows, ptrs]
  unfold Csr.forRow
  by_cases h1 : l = (rs.length : Int)
  · have e1 : rd (Csr.ofRows n rs).indptr l = .ok _ := rd_int (by omega) (by omega)
    rw [e1, ok_bind, rd_oob (by omega)]
    rfl
  · rw [rd_oob (by omega)]
    rfl

/-! ## Products -/

/-- **C140.**  `A.Mult(B)` of two well-formed sparse matrices of any sizes without assertions.  It works exactly if every stored column of `A` is a row of `B`:
the result is then well formed and is the product.  Otherwise it reads outside the arrays of `B`. -/
theorem C140_multSparse [NonUnitalNonAssocSemiring R] (A B : Csr R) (hA : A.WF) (hB : B.WF) (marker : List Int) :
    ((∀ c ∈ A.indices, c < B.rows) → ∃ P, Rel.multSparse .release A B = .ok P ∧ Rel.multSparseMarker .release A B marker = .ok P ∧ P.WF ∧ P.NoDup ∧
      P.rows = A.rows ∧ P.cols = B.cols ∧ ∀ i j, 0 ≤ i → i < A.rows → P.coef i j = ∑ k ∈ Finset.Ico 0 B.rows, A.coef i k * B.coef k j) ∧
    (¬ (∀ c ∈ A.indices, c < B.rows) → Rel.multSparse .release A B = .error .outOfBounds ∧
      Rel.multSparseMarker .release A B marker = .error .outOfBounds) := by
  have hbc := hB.cols_nonneg
  constructor
  · intro h
    have hA' := hA.withCols hB.rows_nonneg h
    obtain ⟨P, h1, h2, h3, h4, h5, h6⟩ := C04_mult _ B hA' hB rfl
    refine ⟨P, ?_, ?_, h2, h3, h4, h5, h6⟩
    · exact (C140_same.1 { A with cols := B.rows } B []).2 P h1
    · exact (C140_same.1 { A with cols := B.rows } B marker).1 P ((C04_marker_irrelevant _ B hA' hB rfl marker).trans h1)
  · intro h
    have key : ∀ m : List Int, Rel.multSparseMarker .release A B m = .error .outOfBounds := by
      intro m
      obtain ⟨n, ra, hn, hra, rfl⟩ := hA.exists_rows
      obtain ⟨p, rb, hp, hrb, rfl⟩ := hB.exists_rows
      obtain ⟨k, hk, e, he, hm⟩ := bad_index h
      have hrows : (Csr.ofRows n ra).rows = (ra.length : Int) := rfl
      have hrowsB : (Csr.ofRows p rb).rows = (rb.length : Int) := rfl
      have hcolsB : (Csr.ofRows p rb).cols = p := rfl
      unfold Rel.multSparseMarker
      simp only [hcolsB, Dense.length_resize]
      rw [show Build.release.assert ((Csr.ofRows p rb).rows = (Csr.ofRows n ra).cols) = .ok () from rfl, ok_bind, hrows,
        mkVec_int (by omega), ok_bind, wr_int le_rfl (by simp), ok_bind]
      rw [forUp_fails (fun _ (st : List Int × Int × List Int) => st.1.length = p.toNat ∧ st.2.2.length = ra.length + 1)
        (fun i => ∀ k (hk : k < ra.length), (k : Int) = i → ∀ e ∈ ra[k], e.1 < (rb.length : Int)) .outOfBounds
        (by simp) ?_ ?_ ⟨k, by omega, by omega, fun hg => absurd (hg k hk rfl e he) (by omega)⟩]
      · rfl
      · rintro i st i0 i1 ⟨hl, hl'⟩ hg
        obtain ⟨q, rfl⟩ : ∃ q : Nat, i = q := ⟨i.toNat, by omega⟩
        have hq : q < ra.length := by omega
        rw [Csr.forRow_ofRows n ra q hq _ _ (fun e mn => (Csr.ofRows p rb).forRow e.1 mn (fun k mn => do
          let c ← rd (Csr.ofRows p rb).indices k
          let m ← rd mn.1 c
          if m ≠ (q : Int) then
            let marker ← wr mn.1 c (q : Int)
            .ok (marker, mn.2 + 1)
          else .ok mn)) (by
            intro m hm s
            rw [rd_indices_ofRows n ra q m hq hm]
            rfl)]
        obtain ⟨mn, e1, e2⟩ := foldlM_keep (l := ra[q]) (s := (st.1, st.2.1)) (f := fun mn e => (Csr.ofRows p rb).forRow e.1 mn (fun k mn => do
          let c ← rd (Csr.ofRows p rb).indices k
          let m ← rd mn.1 c
          if m ≠ (q : Int) then
            let marker ← wr mn.1 c (q : Int)
            .ok (marker, mn.2 + 1)
          else .ok mn)) (fun (mn : List Int × Int) => mn.1.length = p.toNat) hl (by
            intro mn e he hl
            obtain ⟨w, hw⟩ : ∃ w : Nat, e.1 = w := ⟨e.1.toNat, by have := (hra _ (List.getElem_mem hq) e he).1; omega⟩
            have hw' : w < rb.length := by have := hg q hq rfl e he; omega
            rw [hw, Csr.forRow_ofRows p rb w hw' _ _ (fun e (mn : List Int × Int) => do
              let m ← rd mn.1 e.1
              if m ≠ (q : Int) then
                let marker ← wr mn.1 e.1 (q : Int)
                .ok (marker, mn.2 + 1)
              else .ok mn) (by
                intro m hm s
                rw [rd_indices_ofRows p rb w m hw' hm]
                rfl)]
            refine foldlM_keep (fun (mn : List Int × Int) => mn.1.length = p.toNat) hl ?_
            intro mn e he hl
            have hc := hrb _ (List.getElem_mem hw') e he
            rw [rd_int hc.1 (by omega), ok_bind]
            split
            · rw [wr_int hc.1 (by omega), ok_bind]
              exact ⟨_, rfl, by simpa using hl⟩
            · exact ⟨_, rfl, hl⟩)
        rw [e1, ok_bind, wr_int (by omega) (by omega), ok_bind]
        exact ⟨_, rfl, e2, by simpa using hl'⟩
      · rintro i st i0 i1 ⟨hl, hl'⟩ hg
        push Not at hg
        obtain ⟨q, hq, rfl, e, he, hb⟩ := hg
        rw [Csr.forRow_ofRows n ra q hq _ _ (fun e mn => (Csr.ofRows p rb).forRow e.1 mn (fun k mn => do
          let c ← rd (Csr.ofRows p rb).indices k
          let m ← rd mn.1 c
          if m ≠ (q : Int) then
            let marker ← wr mn.1 c (q : Int)
            .ok (marker, mn.2 + 1)
          else .ok mn)) (by
            intro m hm s
            rw [rd_indices_ofRows n ra q m hq hm]
            rfl)]
        rw [foldlM_fails (fun (mn : List Int × Int) => mn.1.length = p.toNat) (fun e => e.1 < (rb.length : Int)) .outOfBounds hl (by
            intro mn e he hl hlt
            obtain ⟨w, hw⟩ : ∃ w : Nat, e.1 = w := ⟨e.1.toNat, by have := (hra _ (List.getElem_mem hq) e he).1; omega⟩
            have hw' : w < rb.length := by omega
            rw [hw, Csr.forRow_ofRows p rb w hw' _ _ (fun e (mn : List Int × Int) => do
              let m ← rd mn.1 e.1
              if m ≠ (q : Int) then
                let marker ← wr mn.1 e.1 (q : Int)
                .ok (marker, mn.2 + 1)
              else .ok mn) (by
                intro m hm s
                rw [rd_indices_ofRows p rb w m hw' hm]
                rfl)]
            refine foldlM_keep (fun (mn : List Int × Int) => mn.1.length = p.toNat) hl ?_
            intro mn e he hl
            have hc := hrb _ (List.getElem_mem hw') e he
            rw [rd_int hc.1 (by omega), ok_bind]
            split
            · rw [wr_int hc.1 (by omega), ok_bind]
              exact ⟨_, rfl, by simpa using hl⟩
            · exact ⟨_, rfl, hl⟩) (by
            intro mn e he hl hlt
            exact forRow_oob (Or.inr (by omega)) _ _) ⟨e, he, by omega⟩]
        rfl
    refine ⟨?_, key marker⟩
    unfold Rel.multSparse
    rw [mkVec_int hbc, ok_bind]
    exact key _

theorem Rel.dget_oob [Zero α] {B : Dense α} (hB : B.WF) {c k : Int} (h : B.rows * B.cols ≤ c + k * B.rows) : Rel.dget .release B c k = .error .outOfBounds :=
  ((C139_access B hB c k (0 : α)).2 (by omega)).1

theorem Rel.dget_in [Zero α] {B : Dense α} (hB : B.WF) {c k : Int} (h0 : 0 ≤ c + k * B.rows) (h : c + k * B.rows < B.rows * B.cols) :
    ∃ v, Rel.dget .release B c k = .ok v := by
  obtain ⟨_, _, -, -, -, -, -, e, -⟩ := (C139_access B hB c k (0 : α)).1 ⟨h0, h⟩
  exact ⟨_, e⟩

theorem Rel.dput_keep [Zero α] {D : Dense α} (hD : D.WF) {i j : Int} (h0 : 0 ≤ i) (h1 : i < D.rows) (h2 : 0 ≤ j) (h3 : j < D.cols) (x : α) :
    ∃ E, Rel.dput .release D i j x = .ok E ∧ E.WF ∧ E.rows = D.rows ∧ E.cols = D.cols := by
  obtain ⟨E, e1, e2⟩ := C33_put D hD i j x h0 h1 h2 h3
  exact ⟨E, C139_same.2.1 D i j x E e1, e2.wf, e2.rows_eq, e2.cols_eq⟩

theorem denseLoop_fails [NonUnitalNonAssocSemiring R] {n : Int} {rs : List (List (Int × R))} (hrs : ∀ r ∈ rs, ∀ e ∈ r, 0 ≤ e.1 ∧ e.1 < n) (B : Dense R)
    (hB : B.WF) (put : Int → Int → R → Dense R → Res (Dense R)) (I : Dense R → Prop) (D : Dense R) (h0 : I D)
    (hput : ∀ i k v D, 0 ≤ i → i < (rs.length : Int) → 0 ≤ k → k < B.cols → I D → ∃ E, put i k v D = .ok E ∧ I E)
    (hc : 1 ≤ B.cols) (h : ¬ ∀ c ∈ (Csr.ofRows n rs).indices, c < B.rows) :
    Rel.denseLoop .release (Csr.ofRows n rs) B put D = .error .outOfBounds := by
  have br := hB.rows_nonneg
  obtain ⟨w, hw, e, he, hm⟩ := bad_index h
  have hrow : ∀ (k : Int) (q : Nat) (hq : q < rs.length), 0 ≤ k →
      ((∀ e ∈ rs[q], e.1 + k * B.rows < B.rows * B.cols) → ∃ v, (Csr.ofRows n rs).forRow (q : Int) (0 : R) (fun j val => do
        let d ← rd (Csr.ofRows n rs).data j
        let c ← rd (Csr.ofRows n rs).indices j
        let x ← Rel.dget .release B c k
        .ok (val + d * x)) = .ok v) ∧
      (¬ (∀ e ∈ rs[q], e.1 + k * B.rows < B.rows * B.cols) → (Csr.ofRows n rs).forRow (q : Int) (0 : R) (fun j val => do
        let d ← rd (Csr.ofRows n rs).data j
        let c ← rd (Csr.ofRows n rs).indices j
        let x ← Rel.dget .release B c k
        .ok (val + d * x)) = .error .outOfBounds) := by
    intro k q hq k0
    rw [Csr.forRow_ofRows n rs q hq _ _ (fun e val => do
      let x ← Rel.dget .release B e.1 k
      .ok (val + e.2 * x)) (by
        intro m hm s
        rw [rd_data_ofRows n rs q m hq hm, rd_indices_ofRows n rs q m hq hm]
        rfl)]
    have hkk : 0 ≤ k * B.rows := mul_nonneg k0 br
    have good : ∀ (v : R), ∀ e ∈ rs[q], e.1 + k * B.rows < B.rows * B.cols → ∃ v', (do
        let x ← Rel.dget .release B e.1 k
        .ok (v + e.2 * x) : Res R) = .ok v' ∧ True := by
      intro v e he hlt
      obtain ⟨x, hx⟩ := Rel.dget_in hB (c := e.1) (k := k) (by have := (hrs _ (List.getElem_mem hq) e he).1; omega) hlt
      rw [hx]
      exact ⟨_, rfl, trivial⟩
    constructor
    · intro hg
      obtain ⟨v, hv, -⟩ := foldlM_keep (l := rs[q]) (s := (0 : R)) (f := fun val e => do
        let x ← Rel.dget .release B e.1 k
        .ok (val + e.2 * x)) (fun _ => True) trivial (fun v e he _ => good v e he (hg e he))
      exact ⟨v, hv⟩
    · intro hg
      push Not at hg
      obtain ⟨e, he, hb⟩ := hg
      refine foldlM_fails (fun _ => True) (fun e => e.1 + k * B.rows < B.rows * B.cols) .outOfBounds trivial
        (fun v e he _ hlt => good v e he hlt) (fun v e he _ hlt => ?_) ⟨e, he, by omega⟩
      rw [Rel.dget_oob hB (by omega)]
      rfl
  unfold Rel.denseLoop
  refine forUp_fails (fun _ D => I D) (fun k => ∀ q (hq : q < rs.length), ∀ e ∈ rs[q], e.1 + k * B.rows < B.rows * B.cols) .outOfBounds h0 ?_ ?_ ?_
  · intro k D k0 k1 hD hg
    refine forUp_inv (a := 0) (b := (rs.length : Int)) (by omega) (fun _ D => I D) hD ?_
    intro i D i0 i1 hD
    obtain ⟨q, rfl⟩ : ∃ q : Nat, i = q := ⟨i.toNat, by omega⟩
    obtain ⟨v, hv⟩ := (hrow k q (by omega) k0).1 (hg q (by omega))
    rw [hv, ok_bind]
    exact hput _ _ _ _ i0 i1 k0 k1 hD
  · intro k D k0 k1 hD hg
    push Not at hg
    obtain ⟨q, hq, e, he, hb⟩ := hg
    refine forUp_fails (fun _ D => I D) (fun i => ∀ q (hq : q < rs.length), (q : Int) = i → ∀ e ∈ rs[q], e.1 + k * B.rows < B.rows * B.cols) .outOfBounds hD
      ?_ ?_ ⟨q, by omega, show (q : Int) < (rs.length : Int) by omega, fun hg => absurd (hg q hq rfl e he) (by omega)⟩
    · intro i D i0 i1 hD hg
      have i1' : i < (rs.length : Int) := i1
      obtain ⟨q, rfl⟩ : ∃ q : Nat, i = q := ⟨i.toNat, by omega⟩
      obtain ⟨v, hv⟩ := (hrow k q (by omega) k0).1 (hg q (by omega) rfl)
      rw [hv, ok_bind]
      exact hput _ _ _ _ i0 i1' k0 k1 hD
    · intro i D i0 i1 hD hg
      push Not at hg
      obtain ⟨q, hq, rfl, e, he, hb⟩ := hg
      rw [(hrow k q hq k0).2 (fun h => absurd (h e he) (by omega))]
      rfl
  · refine ⟨B.cols - 1, by omega, by omega, fun hg => ?_⟩
    have h1 := hg w hw e he
    rw [sub_mul, one_mul, mul_comm B.cols] at h1
    omega

/-- **C140.**  `A.Mult(B)` and `A.MultCT(B)` of a sparse and a dense matrix.  They work exactly if every stored column of `A` is a row of `B` or `B` has no
columns. -/
theorem C140_multDense [NonUnitalNonAssocSemiring R] (A : Csr R) (hA : A.WF) (B C : Dense R) (hB : B.WF) :
    ((∀ c ∈ A.indices, c < B.rows) →
      (∃ E, Rel.multDense .release A B C = .ok E ∧ E.Is A.rows B.cols (fun i k => ∑ j ∈ Finset.Ico 0 B.rows, A.coef i j * B.entry j k)) ∧
      ∃ E, Rel.multCTDense .release A B C = .ok E ∧ E.Is B.cols A.rows (fun k i => ∑ j ∈ Finset.Ico 0 B.rows, A.coef i j * B.entry j k)) ∧
    (¬ (∀ c ∈ A.indices, c < B.rows) → 1 ≤ B.cols →
      Rel.multDense .release A B C = .error .outOfBounds ∧ Rel.multCTDense .release A B C = .error .outOfBounds) := by
  constructor
  · intro h
    have hA' := hA.withCols hB.rows_nonneg h
    obtain ⟨E, h1, h2⟩ := C14_multDenseInto _ hA' B C hB rfl
    obtain ⟨F, h3, h4⟩ := C14_multCTDenseInto _ hA' B C hB rfl
    exact ⟨⟨E, (C140_same.2.1 { A with cols := B.rows } B C).1 E h1, h2⟩, F, (C140_same.2.1 { A with cols := B.rows } B C).2.1 F h3, h4⟩
  · intro h hc
    obtain ⟨n, rs, hn, hrs, rfl⟩ := hA.exists_rows
    have hrows : (Csr.ofRows n rs).rows = (rs.length : Int) := rfl
    constructor
    · unfold Rel.multDense
      obtain ⟨D, d1, d2, d3, d4⟩ := Dense.setSize_wf C (r := (Csr.ofRows n rs).rows) (c := B.cols) (by omega) (by omega)
      rw [show Build.release.assert (B.rows = (Csr.ofRows n rs).cols) = .ok () from rfl, ok_bind, d1, ok_bind]
      refine denseLoop_fails hrs B hB _ (fun (D : Dense R) => D.WF ∧ D.rows = rs.length ∧ D.cols = B.cols) _
        ⟨⟨d2.rows_nonneg, d2.cols_nonneg, by simpa [Dense.fill] using d2.size⟩, d3, d4⟩ ?_ hc h
      rintro i k v D i0 i1 k0 k1 ⟨h1, h2, h3⟩
      obtain ⟨E, e1, e2, e3, e4⟩ := Rel.dput_keep h1 i0 (by omega) k0 (by omega) v
      exact ⟨E, e1, e2, by omega, by omega⟩
    · unfold Rel.multCTDense
      obtain ⟨D, d1, d2, d3, d4⟩ := Dense.setSize_wf C (r := B.cols) (c := (Csr.ofRows n rs).rows) (by omega) (by omega)
      rw [show Build.release.assert (B.rows = (Csr.ofRows n rs).cols) = .ok () from rfl, ok_bind, d1, ok_bind]
      refine denseLoop_fails hrs B hB _ (fun (D : Dense R) => D.WF ∧ D.rows = B.cols ∧ D.cols = rs.length) _
        ⟨⟨d2.rows_nonneg, d2.cols_nonneg, by simpa [Dense.fill] using d2.size⟩, d3, d4⟩ ?_ hc h
      rintro i k v D i0 i1 k0 k1 ⟨h1, h2, h3⟩
      obtain ⟨E, e1, e2, e3, e4⟩ := Rel.dput_keep h1 k0 (by omega) i0 (by omega) v
      exact ⟨E, e1, e2, by omega, by omega⟩

/-- **C140.**  `A.MultAT(B)`: it works exactly if every row of `A` that is not empty is a row of `B` or `B` has no columns. -/
theorem C140_multATDense [NonUnitalNonAssocSemiring R] (A : Csr R) (hA : A.WF) (B C : Dense R) (hB : B.WF) :
    ((∀ i, A.row i ≠ [] → i < B.rows) →
      ∃ E, Rel.multATDense .release A B C = .ok E ∧ E.Is A.cols B.cols (fun j k => ∑ i ∈ Finset.Ico 0 A.rows, A.coef i j * B.entry i k)) ∧
    (¬ (∀ i, A.row i ≠ [] → i < B.rows) → 1 ≤ B.cols → Rel.multATDense .release A B C = .error .outOfBounds) := by
  obtain ⟨n, rs, hn, hrs, rfl⟩ := hA.exists_rows
  obtain ⟨N, rfl⟩ : ∃ N : Nat, n = N := ⟨n.toNat, by omega⟩
  have hBi := hB.is_entry
  have hc := hB.cols_nonneg
  have br := hB.rows_nonneg
  have hT := triplesL_ok hrs
  obtain ⟨K, hK⟩ : ∃ K : Nat, B.cols = K := ⟨B.cols.toNat, by omega⟩
  obtain ⟨f, hf⟩ := Dense.setSize_ofFn C N K
  have hcols : (Csr.ofRows (N : Int) rs).cols = (N : Int) := rfl
  have e : C.setSize (Csr.ofRows (N : Int) rs).cols (K : Int) = _ := hf
  constructor
  · intro h
    have hT' : ∀ t ∈ triplesL rs, t.1 < B.rows := by
      intro t ht
      obtain ⟨k, hk, h1, h2⟩ := mem_triplesL.mp ht
      refine h t.1 ?_
      rw [h1, Csr.row_ofRows _ rs k hk]
      exact List.ne_nil_of_mem h2
    let F : Int → Int → R := fun a b => ∑ i ∈ Finset.Ico 0 (rs.length : Int), (Csr.ofRows (N : Int) rs).coef i a * B.entry i b
    have hdbg : forUp 0 (K : Int) (Dense.ofFn N K (fun _ _ => (0 : R))) (fun k output =>
        forUp 0 (Csr.ofRows (N : Int) rs).rows output (fun i output =>
          (Csr.ofRows (N : Int) rs).forRow i output (fun j output => do
            let c ← rd (Csr.ofRows (N : Int) rs).indices j
            let d ← rd (Csr.ofRows (N : Int) rs).data j
            let x ← Rel.dget .debug B i k
            let old ← Rel.dget .debug output c k
            Rel.dput .debug output c k (old + d * x))))
        = .ok (Dense.ofFn N K F) := by
      have e0 : Dense.ofFn N K (fun _ _ => (0 : R)) = Dense.ofFn N K (fun a b => if b < 0 then F a b else 0) := by
        apply Dense.ofFn_congr; intros; rw [if_neg (by omega)]
      have e1 : Dense.ofFn N K F = Dense.ofFn N K (fun a b => if b < (K : Int) then F a b else 0) := by
        apply Dense.ofFn_congr; intros; rw [if_pos (by omega)]
      rw [e0, e1]
      refine forUp_seq (by omega) (fun k => Dense.ofFn N K (fun a b => if b < k then F a b else 0)) ?_
      intro k hk0 hk1
      rw [rowLoop_ofRows (N : Int) rs _ _ (fun i e D => do
          let x ← B.get i k
          let old ← D.get e.1 k
          D.put e.1 k (old + e.2 * x))]
      · rw [foldlM_congr _ (g := fun D t => do
            let old ← D.get t.2.1 k
            D.put t.2.1 k (old + t.2.2 * (fun i => B.entry i k) t.1)) (by
          intro t ht s
          have := hT t ht
          rw [hBi.get_eq t.1 k this.1.1 (hT' t ht) hk0 (by omega)]; rfl)]
        rw [foldlM_scatter_col (triplesL rs) (fun i => B.entry i k) k hk0 hk1 _ (fun t ht => (hT t ht).2)]
        congr 1
        apply Dense.ofFn_congr
        intro a b _ _ _ _
        by_cases hb : b = k
        · rw [if_pos hb, if_neg (by omega), if_pos (by omega), zero_add, hb,
            rowCoef_scatter (N : Int) rs (fun i => B.entry i k)]
        · rw [if_neg hb]
          congr 1; apply propext; omega
      · intro p m hp hm s
        rw [rd_data_ofRows _ rs p m hp hm, rd_indices_ofRows _ rs p m hp hm]
        rfl
    refine ⟨Dense.ofFn N K F, ?_, by rw [hK]; exact Dense.is_ofFn N K _⟩
    unfold Rel.multATDense
    rw [show Build.release.assert (B.rows = (Csr.ofRows (N : Int) rs).rows) = .ok () from rfl, ok_bind, hK, e, ok_bind]
    simp only [Dense.fill_ofFn]
    refine Refines.forUp (fun k _ => Refines.forUp fun i _ => Refines.forRow fun _ _ => ?_) _ hdbg
    exact (Refines.refl _).bind fun _ => (Refines.refl _).bind fun _ => (Refines.dget B i k).bind fun _ => (Refines.dget _ _ k).bind fun _ =>
      Refines.dput _ _ _ _
  · intro h hc1
    push Not at h
    obtain ⟨i, hi, hb⟩ := h
    have i0 : 0 ≤ i := by omega
    obtain ⟨q, rfl⟩ : ∃ q : Nat, i = q := ⟨i.toNat, by omega⟩
    have hq : q < rs.length := by
      by_contra hq
      rw [row_ofRows_getD _ rs i0] at hi
      exact hi (by rw [Int.toNat_natCast, List.getD_eq_getElem?_getD, List.getElem?_eq_none (by omega)]; rfl)
    rw [Csr.row_ofRows _ rs q hq] at hi
    obtain ⟨e', he'⟩ := List.exists_mem_of_ne_nil _ hi
    have hmem : ((q : Int), e') ∈ triplesL rs := mem_triplesL.mpr ⟨q, hq, rfl, he'⟩
    unfold Rel.multATDense
    rw [show Build.release.assert (B.rows = (Csr.ofRows (N : Int) rs).rows) = .ok () from rfl, ok_bind, hK, e, ok_bind]
    simp only [Dense.fill_ofFn]
    have hloop : ∀ (k : Int) (D : Dense R), forUp 0 (Csr.ofRows (N : Int) rs).rows D (fun i output =>
          (Csr.ofRows (N : Int) rs).forRow i output (fun j output => do
            let c ← rd (Csr.ofRows (N : Int) rs).indices j
            let d ← rd (Csr.ofRows (N : Int) rs).data j
            let x ← Rel.dget .release B i k
            let old ← Rel.dget .release output c k
            Rel.dput .release output c k (old + d * x)))
        = (triplesL rs).foldlM (fun D t => do
            let x ← Rel.dget .release B t.1 k
            let old ← Rel.dget .release D t.2.1 k
            Rel.dput .release D t.2.1 k (old + t.2.2 * x)) D := by
      intro k D
      rw [rowLoop_ofRows (N : Int) rs _ _ (fun i e D => do
        let x ← Rel.dget .release B i k
        let old ← Rel.dget .release D e.1 k
        Rel.dput .release D e.1 k (old + e.2 * x))]
      intro p m hp hm s
      rw [rd_data_ofRows _ rs p m hp hm, rd_indices_ofRows _ rs p m hp hm]
      rfl
    have good : ∀ k, 0 ≤ k → k < (K : Int) → ∀ D : Dense R, ∀ t ∈ triplesL rs, (D.WF ∧ D.rows = N ∧ D.cols = K) → t.1 + k * B.rows < B.rows * B.cols →
        ∃ E, (do
            let x ← Rel.dget .release B t.1 k
            let old ← Rel.dget .release D t.2.1 k
            Rel.dput .release D t.2.1 k (old + t.2.2 * x) : Res (Dense R)) = .ok E ∧ (E.WF ∧ E.rows = N ∧ E.cols = K) := by
      rintro k k0 k1 D t ht ⟨h1, h2, h3⟩ hlt
      have ht' := hT t ht
      have hkk : 0 ≤ k * B.rows := mul_nonneg k0 br
      obtain ⟨x, hx⟩ := Rel.dget_in hB (c := t.1) (k := k) (by omega) hlt
      rw [hx, ok_bind, Rel.dget_ok h1 .release ht'.2.1 (by omega) k0 (by omega), ok_bind]
      obtain ⟨E, e1, e2, e3, e4⟩ := Rel.dput_keep h1 ht'.2.1 (by omega) k0 (by omega) (D.entry t.2.1 k + t.2.2 * x)
      exact ⟨E, e1, e2, by omega, by omega⟩
    refine forUp_fails (fun _ (D : Dense R) => D.WF ∧ D.rows = N ∧ D.cols = K) (fun k => ∀ t ∈ triplesL rs, t.1 + k * B.rows < B.rows * B.cols) .outOfBounds ?_ ?_ ?_ ?_
    · have := Dense.is_ofFn N K (fun _ _ => (0 : R))
      exact ⟨this.wf, this.rows_eq, this.cols_eq⟩
    · intro k D k0 k1 hD hg
      rw [hloop]
      exact foldlM_keep (fun (D : Dense R) => D.WF ∧ D.rows = N ∧ D.cols = K) hD fun D t ht hD => good k k0 k1 D t ht hD (hg t ht)
    · intro k D k0 k1 hD hg
      push Not at hg
      obtain ⟨t, ht, hb⟩ := hg
      rw [hloop]
      refine foldlM_fails (fun (D : Dense R) => D.WF ∧ D.rows = N ∧ D.cols = K) (fun t => t.1 + k * B.rows < B.rows * B.cols) .outOfBounds hD
        (fun D t ht hD hlt => good k k0 k1 D t ht hD hlt) (fun D t ht _ hlt => ?_) ⟨t, ht, by omega⟩
      rw [Rel.dget_oob hB (by omega)]
      rfl
    · refine ⟨B.cols - 1, by omega, by omega, fun hg => ?_⟩
      have h1 := hg _ hmem
      simp only at h1
      rw [sub_mul, one_mul, mul_comm B.cols] at h1
      omega

/-! ## Updates -/

theorem updLoop_fails {n : Int} {rs : List (List (Int × α))} (f : Int → Int → List α → Res (List α)) (good : Int × Int × α → Prop) (e : Err)
    (hgood : ∀ (t : Int × Int × α) (p : Nat), t ∈ triplesL rs → p < (triplesL rs).length → rd (Csr.ofRows n rs).indices (p : Int) = .ok t.2.1 →
      ∀ d : List α, d.length = (triplesL rs).length → good t → ∃ d', f t.1 (p : Int) d = .ok d' ∧ d'.length = (triplesL rs).length)
    (hbad : ∀ (t : Int × Int × α) (p : Nat), t ∈ triplesL rs → p < (triplesL rs).length → rd (Csr.ofRows n rs).indices (p : Int) = .ok t.2.1 →
      ∀ d : List α, d.length = (triplesL rs).length → ¬ good t → f t.1 (p : Int) d = .error e)
    (hex : ∃ t ∈ triplesL rs, ¬ good t) :
    forUp 0 (Csr.ofRows n rs).rows (Csr.ofRows n rs).data (fun i s => (Csr.ofRows n rs).forRow i s (fun j s => f i j s)) = .error e := by
  rw [rowLoop_pos]
  have hmem : ∀ q ∈ (triplesL rs).zipIdx, q.1 ∈ triplesL rs ∧ q.2 < (triplesL rs).length ∧ rd (Csr.ofRows n rs).indices (q.2 : Int) = .ok q.1.2.1 := by
    intro q hq
    rw [List.mem_zipIdx_iff_getElem?] at hq
    obtain ⟨h1, h2⟩ := List.getElem?_eq_some_iff.mp hq
    refine ⟨h2 ▸ List.getElem_mem h1, h1, ?_⟩
    rw [rd_eq_ok]
    refine ⟨by omega, ?_⟩
    simp only [Csr.ofRows, ← triplesL_map_snd rs, Int.toNat_natCast]
    simp [hq]
  refine foldlM_fails (fun d => d.length = (triplesL rs).length) (fun q => good q.1) e ?_ ?_ ?_ ?_
  · simp only [Csr.ofRows, List.length_map, ← triplesL_map_snd rs]
  · intro d q hq hd hg
    obtain ⟨h1, h2, h3⟩ := hmem q hq
    exact hgood q.1 q.2 h1 h2 h3 d hd hg
  · intro d q hq hd hg
    obtain ⟨h1, h2, h3⟩ := hmem q hq
    exact hbad q.1 q.2 h1 h2 h3 d hd hg
  · obtain ⟨t, ht, hb⟩ := hex
    obtain ⟨p, hp, rfl⟩ := List.getElem_of_mem ht
    exact ⟨((triplesL rs)[p], p), by rw [List.mem_zipIdx_iff_getElem?]; exact List.getElem?_eq_getElem hp, hb⟩

theorem mem_triples_of_bad {n m : Int} {rs : List (List (Int × α))} (h : ¬ ∀ c ∈ (Csr.ofRows n rs).indices, c < m) : ∃ t ∈ triplesL rs, ¬ t.2.1 < m := by
  obtain ⟨k, hk, e, he, hm⟩ := bad_index h
  exact ⟨((k : Int), e), mem_triplesL.mpr ⟨k, hk, rfl, he⟩, by simp only; omega⟩

/-- **C140.**  `GetDiag()` of a matrix that need not be square: one element for every row, the last value stored on the diagonal or zero. -/
theorem C140_getDiag [Zero α] (A : Csr α) (hA : A.WF) :
    ∃ d, Rel.getDiag .release A = .ok d ∧ (d.length : Int) = A.rows ∧ ∀ i, 0 ≤ i → i < A.rows → rd d i = .ok (A.lastAt i i) := by
  obtain ⟨n, rs, hn, hrs, rfl⟩ := hA.exists_rows
  have hr : (Csr.ofRows n rs).rows = (rs.length : Int) := rfl
  unfold Rel.getDiag
  rw [show Build.release.assert ((Csr.ofRows n rs).rows = (Csr.ofRows n rs).cols) = .ok () from rfl, hr, mkVec_nat]
  simp only [ok_bind]
  rw [forUp_build (n := rs.length) (by simp)
    (fun k => (((rs.getD k []).filter (fun e => e.1 = (k : Int))).map Prod.snd).getLastD 0)]
  · refine ⟨_, rfl, by simp, ?_⟩
    intro i h0 h1
    rw [rd_eq_ok]
    refine ⟨h0, ?_⟩
    have : ((i.toNat : Nat) : Int) = i := by omega
    unfold Csr.lastAt
    rw [row_ofRows_getD n rs h0, List.getElem?_map, List.getElem?_range (by omega)]
    simp only [Option.map_some, this]
  · intro k hk out ho
    rw [Csr.forRow_ofRows n rs k hk _ _ (fun e val => .ok (if e.1 = (k : Int) then e.2 else val))]
    · have := (foldlM_eq_foldl (l := rs[k])
        (f := fun (val : α) e => (.ok (if e.1 = (k : Int) then e.2 else val) : Res α))
        (g := fun val e => if e.1 = (k : Int) then e.2 else val) (fun _ => True) (s := (0 : α)) trivial
        (fun _ _ _ _ => ⟨rfl, trivial⟩)).1
      rw [this]
      simp only [ok_bind]
      rw [foldl_last, wr_nat (by omega)]
      simp [hk]
    · intro m hm s
      rw [rd_data_ofRows n rs k m hk hm, rd_indices_ofRows n rs k m hk hm]
      simp only [ok_bind]
      split <;> rfl

/-- **C140.**  `AddDiag(d)` of a matrix that need not be square: it works exactly if `d` has an element for every row that stores its diagonal. -/
theorem C140_addDiag [AddZeroClass α] (A : Csr α) (hA : A.WF) (d : List α) :
    ((∀ i, (∃ e ∈ A.row i, e.1 = i) → i < (d.length : Int)) →
      ∃ B, Rel.addDiag .release A d = .ok B ∧ B.WF ∧ A.UpdatedBy B (fun i j v => if j = i then v + vecAt d i else v)) ∧
    (¬ (∀ i, (∃ e ∈ A.row i, e.1 = i) → i < (d.length : Int)) → Rel.addDiag .release A d = .error .outOfBounds) := by
  obtain ⟨n, rs, hn, hrs, rfl⟩ := hA.exists_rows
  unfold Rel.addDiag
  rw [show Build.release.assert ((Csr.ofRows n rs).rows = (Csr.ofRows n rs).cols) = .ok () from rfl, ok_bind]
  constructor
  · intro h
    refine upd_ofRows hn hrs _ (fun i e => if e.1 = i then e.2 + vecAt d i else e.2) ?_
    intro t p ht hp hi dd hdd hv
    have hc := (triplesL_ok hrs t ht).1
    simp only [hv, hi, ok_bind]
    by_cases e : t.2.1 = t.1
    · have hlt : t.1 < (d.length : Int) := by
        obtain ⟨k, hk, h1, h2⟩ := mem_triplesL.mp ht
        refine h t.1 ⟨t.2, ?_, e⟩
        rw [h1, Csr.row_ofRows _ rs k hk]
        exact h2
      simp only [e, if_true]
      rw [rd_vecAt d hc.1 hlt]
      exact wr_nat (by omega)
    · simp only [e, if_false]; rw [set_getElem_self dd p _ hv]
  · intro h
    push Not at h
    obtain ⟨i, ⟨e, he, hei⟩, hd⟩ := h
    have i0 : 0 ≤ i := by omega
    obtain ⟨q, rfl⟩ : ∃ q : Nat, i = q := ⟨i.toNat, by omega⟩
    have hq : q < rs.length := by
      by_contra hq
      rw [row_ofRows_getD _ rs i0, Int.toNat_natCast, List.getD_eq_getElem?_getD, List.getElem?_eq_none (by omega)] at he
      exact absurd he (by simp)
    rw [Csr.row_ofRows _ rs q hq] at he
    rw [updLoop_fails _ (fun t => t.2.1 = t.1 → t.1 < (d.length : Int)) .outOfBounds ?_ ?_
      ⟨((q : Int), e), mem_triplesL.mpr ⟨q, hq, rfl, he⟩, fun hh => absurd (hh hei) (by simp only; omega)⟩]
    · rfl
    · intro t p ht hp hi dd hdd hg
      have hc := (triplesL_ok hrs t ht).1
      simp only [hi, ok_bind]
      by_cases e : t.2.1 = t.1
      · rw [if_pos e, rd_nat (by omega), ok_bind, rd_vecAt d hc.1 (hg e), ok_bind, wr_nat (by omega)]
        exact ⟨_, rfl, by simpa using hdd⟩
      · rw [if_neg e]; exact ⟨_, rfl, hdd⟩
    · intro t p ht hp hi dd hdd hg
      push Not at hg
      simp only [hi, ok_bind]
      rw [if_pos hg.1, rd_nat (by omega), ok_bind, rd_oob (by omega)]
      rfl

/-- **C140.**  `ScaleRows(d)`: it works exactly if `d` has at least as many elements as the matrix has rows. -/
theorem C140_scaleRows [MulZeroClass α] (A : Csr α) (hA : A.WF) (d : List α) :
    (A.rows ≤ d.length → ∃ B, Rel.scaleRows .release A d = .ok B ∧ B.WF ∧ A.UpdatedBy B (fun i _ v => v * vecAt d i)) ∧
    ((d.length : Int) < A.rows → Rel.scaleRows .release A d = .error .outOfBounds) := by
  obtain ⟨n, rs, hn, hrs, rfl⟩ := hA.exists_rows
  have hrows : (Csr.ofRows n rs).rows = (rs.length : Int) := rfl
  unfold Rel.scaleRows
  rw [show Build.release.assert ((d.length : Int) = (Csr.ofRows n rs).rows) = .ok () from rfl, ok_bind]
  constructor
  · intro hd
    have hl : ∀ data : List α, forUp 0 (Csr.ofRows n rs).rows data (fun i data => do
        let s ← rd d i
        (Csr.ofRows n rs).forRow i data (fun j data => do
          let x ← rd data j
          wr data j (x * s)))
        = forUp 0 (Csr.ofRows n rs).rows data (fun i data =>
        (Csr.ofRows n rs).forRow i data (fun j data => do
          let x ← rd data j
          wr data j (x * vecAt d i))) := by
      intro data
      apply forUp_congr
      intro i s h0 h1
      rw [rd_vecAt d h0 (by omega)]
      rfl
    rw [hl]
    refine upd_ofRows hn hrs (fun i j data => do
          let x ← rd data j
          wr data j (x * vecAt d i)) (fun i e => e.2 * vecAt d i) ?_
    intro t p ht hp hi dd hdd hv
    simp only [hv, ok_bind]
    exact wr_nat (by omega)
  · intro hd
    rw [forUp_fails (fun _ (dd : List α) => dd.length = rs.flatten.length) (fun i => i < (d.length : Int)) .outOfBounds
      (by simp only [Csr.ofRows, List.length_map]) ?_ ?_ ⟨d.length, by omega, hd, by omega⟩]
    · rfl
    · intro i dd i0 i1 hdd hg
      rw [hrows] at i1
      obtain ⟨q, rfl⟩ : ∃ q : Nat, i = q := ⟨i.toNat, by omega⟩
      have hq : q < rs.length := by omega
      rw [rd_vecAt d i0 hg, ok_bind]
      unfold Csr.forRow
      have e1 : rd (Csr.ofRows n rs).indptr (q : Int) = _ := rd_ptrs rs q hq.le
      have e2 : rd (Csr.ofRows n rs).indptr ((q : Int) + 1) = _ := rd_ptrs_succ rs q hq
      rw [e1, ok_bind, e2, ok_bind]
      have hle : ((rs.take q).flatten.length : Int) + rs[q].length ≤ rs.flatten.length := by
        have h1 : (rs.take (q + 1)).flatten.length ≤ rs.flatten.length := by
          conv_rhs => rw [← List.take_append_drop (q + 1) rs, List.flatten_append, List.length_append]
          omega
        rw [List.take_succ_eq_append_getElem hq, List.flatten_append] at h1
        simp only [List.length_append, List.flatten_cons, List.flatten_nil, List.append_nil] at h1
        omega
      refine forUp_inv (by omega) (fun _ (dd : List α) => dd.length = rs.flatten.length) hdd ?_
      intro j dd j0 j1 hdd
      rw [rd_int (by omega) (by omega), ok_bind, wr_int (by omega) (by omega)]
      exact ⟨_, rfl, by simpa using hdd⟩
    · intro i dd i0 i1 hdd hg
      rw [rd_oob (by omega)]
      rfl

/-- **C140.**  `ScaleCols(d)`: it works exactly if `d` has an element for every stored column. -/
theorem C140_scaleCols [MulZeroClass α] (A : Csr α) (hA : A.WF) (d : List α) :
    ((∀ c ∈ A.indices, c < (d.length : Int)) → ∃ B, Rel.scaleCols .release A d = .ok B ∧ B.WF ∧ A.UpdatedBy B (fun _ j v => v * vecAt d j)) ∧
    (¬ (∀ c ∈ A.indices, c < (d.length : Int)) → Rel.scaleCols .release A d = .error .outOfBounds) := by
  obtain ⟨n, rs, hn, hrs, rfl⟩ := hA.exists_rows
  unfold Rel.scaleCols
  rw [show Build.release.assert ((d.length : Int) = (Csr.ofRows n rs).cols) = .ok () from rfl, ok_bind]
  constructor
  · intro h
    refine upd_ofRows hn hrs _ (fun _ e => e.2 * vecAt d e.1) ?_
    intro t p ht hp hi dd hdd hv
    have hc := (triplesL_ok hrs t ht).2
    have hlt : t.2.1 < (d.length : Int) := by
      obtain ⟨k, hk, h1, h2⟩ := mem_triplesL.mp ht
      exact h _ (mem_indices_ofRows.mpr ⟨_, List.getElem_mem hk, _, h2, rfl⟩)
    simp only [hv, hi, ok_bind]
    rw [rd_vecAt d hc.1 hlt]
    simp only [ok_bind]
    exact wr_nat (by omega)
  · intro h
    rw [updLoop_fails _ (fun t => t.2.1 < (d.length : Int)) .outOfBounds ?_ ?_ (mem_triples_of_bad h)]
    · rfl
    · intro t p ht hp hi dd hdd hg
      have hc := (triplesL_ok hrs t ht).2
      simp only [hi, ok_bind]
      rw [rd_vecAt d hc.1 hg, ok_bind, rd_nat (by omega), ok_bind, wr_nat (by omega)]
      exact ⟨_, rfl, by simpa using hdd⟩
    · intro t p ht hp hi dd hdd hg
      simp only [hi, ok_bind]
      rw [rd_oob (by omega)]
      rfl

/-- **C140.**  `PermuteCols(perm)`: it works exactly if `perm` has an element for every stored column.  The new columns are not checked: the result is well
formed exactly if they are columns of the matrix. -/
theorem C140_permuteCols (A : Csr α) (hA : A.WF) (perm : List Int) :
    ((∀ c ∈ A.indices, c < (perm.length : Int)) →
      ∃ B, Rel.permuteCols .release A perm = .ok B ∧ B.rows = A.rows ∧ B.cols = A.cols ∧ (∀ i, B.row i = (A.row i).map (fun e => (vecAt perm e.1, e.2))) ∧
        (B.WF ↔ ∀ c ∈ A.indices, 0 ≤ vecAt perm c ∧ vecAt perm c < A.cols)) ∧
    (¬ (∀ c ∈ A.indices, c < (perm.length : Int)) → Rel.permuteCols .release A perm = .error .outOfBounds) := by
  obtain ⟨n, rs, hn, hrs, rfl⟩ := hA.exists_rows
  unfold Rel.permuteCols
  rw [show Build.release.assert ((perm.length : Int) = (Csr.ofRows n rs).cols) = .ok () from rfl, ok_bind]
  have hpos : ∀ c ∈ (Csr.ofRows n rs).indices, 0 ≤ c := fun c hc => (hA.cols_ok c hc).1
  constructor
  · intro h
    have e1 : ptrs (rs.map (fun r => r.map (fun e => (vecAt perm e.1, e.2)))) = ptrs rs := ptrs_map_length rs _ (by intro r; simp)
    refine ⟨Csr.ofRows n (rs.map (fun r => r.map (fun e => (vecAt perm e.1, e.2)))), ?_, by simp [Csr.ofRows], rfl, ?_, ?_⟩
    · rw [forUp_map (Csr.ofRows n rs).indices (vecAt perm)]
      · simp only [ok_bind]
        simp only [Csr.ofRows, e1, ← List.map_flatten, List.map_map, Function.comp_def, List.length_map]
      · intro p hpl d hd hv
        have hm := List.getElem_mem hpl
        rw [hv]
        simp only [ok_bind]
        rw [rd_vecAt perm (hpos _ hm) (h _ hm)]
        simp only [ok_bind]
        rw [← wr_nat (by omega)]
        rfl
    · intro i
      exact row_ofRows_map n n rs _ rfl i
    · constructor
      · intro hw c hc
        obtain ⟨r, hr, e, he, rfl⟩ := mem_indices_ofRows.mp hc
        exact hw.cols_ok _ (mem_indices_ofRows.mpr ⟨_, List.mem_map.mpr ⟨r, hr, rfl⟩, _, List.mem_map.mpr ⟨e, he, rfl⟩, rfl⟩)
      · intro hw
        apply Csr.wf_ofRows hn
        intro r hr' e he
        obtain ⟨r', hr'', rfl⟩ := List.mem_map.mp hr'
        obtain ⟨x, hx, rfl⟩ := List.mem_map.mp he
        exact hw _ (mem_indices_ofRows.mpr ⟨_, hr'', _, hx, rfl⟩)
  · intro h
    push Not at h
    obtain ⟨c, hc, hb⟩ := h
    obtain ⟨p, hp, rfl⟩ := List.getElem_of_mem hc
    rw [forUp_fails (fun i (ix : List Int) => ix.length = (Csr.ofRows n rs).indices.length ∧ ∀ k : Nat, i ≤ k → ix[k]? = (Csr.ofRows n rs).indices[k]?)
      (fun i => ∀ k : Nat, (k : Int) = i → ∀ x, (Csr.ofRows n rs).indices[k]? = some x → x < (perm.length : Int)) .outOfBounds ⟨rfl, fun _ _ => rfl⟩ ?_ ?_
      ⟨p, by omega, by omega, fun hg => absurd (hg p rfl _ (List.getElem?_eq_getElem hp)) (by omega)⟩]
    · rfl
    · rintro i ix i0 i1 ⟨hl, hk⟩ hg
      obtain ⟨q, rfl⟩ : ∃ q : Nat, i = q := ⟨i.toNat, by omega⟩
      have hq : q < (Csr.ofRows n rs).indices.length := by omega
      have e1 : rd ix (q : Int) = .ok (Csr.ofRows n rs).indices[q] := by
        rw [rd_eq_ok]
        exact ⟨by omega, by rw [Int.toNat_natCast, hk q le_rfl, List.getElem?_eq_getElem hq]⟩
      rw [e1, ok_bind, rd_vecAt perm (hpos _ (List.getElem_mem hq)) (hg q rfl _ (List.getElem?_eq_getElem hq)), ok_bind]
      refine ⟨ix.set q (vecAt perm (Csr.ofRows n rs).indices[q]), ?_, by simpa using hl, ?_⟩
      · rw [← wr_nat (by omega)]
        rfl
      · intro k hk'
        rw [List.getElem?_set, if_neg (by omega)]
        exact hk k (by omega)
    · rintro i ix i0 i1 ⟨hl, hk⟩ hg
      push Not at hg
      obtain ⟨q, rfl, x, hx, hb⟩ := hg
      have e1 : rd ix (q : Int) = .ok x := by
        rw [rd_eq_ok]
        exact ⟨by omega, by rw [Int.toNat_natCast, hk q le_rfl, hx]⟩
      rw [e1, ok_bind, rd_oob (by omega)]
      rfl

/-- **C140.**  `EliminateRow(index)` with any other index reads outside the row pointers; `EliminateCol(index)` with any other index changes nothing. -/
theorem C140_eliminate [Zero α] (A : Csr α) (hA : A.WF) (index : Int) :
    (index < 0 ∨ A.rows ≤ index → Rel.eliminateRow .release A index = .error .outOfBounds) ∧
    (index < 0 ∨ A.cols ≤ index → Rel.eliminateCol .release A index = .ok A) ∧
    ∃ B, Rel.eliminateCol .release A index = .ok B ∧ B.WF ∧ A.UpdatedBy B (fun _ j v => if j = index then 0 else v) := by
  have hcols := hA.cols_ok
  obtain ⟨n, rs, hn, hrs, rfl⟩ := hA.exists_rows
  refine ⟨?_, ?_, ?_⟩
  · intro h
    have h' : index < 0 ∨ (rs.length : Int) ≤ index := h
    show ((Csr.ofRows n rs).forRow index (Csr.ofRows n rs).data (fun j data => wr data j 0) >>= fun _ => _) = _
    rw [forRow_oob h']
    rfl
  · intro h
    have h' : index < 0 ∨ n ≤ index := h
    unfold Rel.eliminateCol
    rw [show Build.release.assert (index ≥ 0) = .ok () from rfl, ok_bind,
      show Build.release.assert (index < (Csr.ofRows n rs).cols ∨ (Csr.ofRows n rs).cols = 0) = .ok () from rfl, ok_bind]
    rw [rowLoop_ofRows n rs _ _ (fun _ _ d => .ok d) (by
      intro k m hk hm s
      have := hrs _ (List.getElem_mem hk) _ (List.getElem_mem hm)
      rw [rd_indices_ofRows n rs k m hk hm, ok_bind, if_neg (by omega)])]
    have : ∀ (l : List (Int × Int × α)) (d : List α), l.foldlM (fun d _ => (.ok d : Res (List α))) d = .ok d := by
      intro l d
      induction l with
      | nil => rfl
      | cons a l ih => rw [List.foldlM_cons, ok_bind]; exact ih
    rw [this]
    rfl
  · unfold Rel.eliminateCol
    rw [show Build.release.assert (index ≥ 0) = .ok () from rfl, ok_bind,
      show Build.release.assert (index < (Csr.ofRows n rs).cols ∨ (Csr.ofRows n rs).cols = 0) = .ok () from rfl, ok_bind]
    refine upd_ofRows hn hrs _ (fun _ e => if e.1 = index then 0 else e.2) ?_
    intro t p ht hp hi d hd hv
    rw [hi]
    simp only [ok_bind]
    by_cases e : t.2.1 = index
    · simp only [e, if_true]; exact wr_nat (by omega)
    · simp only [e, if_false]; rw [set_getElem_self d p _ hv]

/-! ## Concrete cases -/

/-- A 2 x 5 matrix that stores columns 0 and 1 times a 2 x 2 matrix; a third column stored is read outside. -/
example : ∃ A B P : Csr Int, A.WF ∧ B.WF ∧ Rel.multSparse .release A B = .ok ⟨2, 2, [0, 1, 2], [1, 0], [15, 4]⟩ ∧ Rel.multSparse .debug A B = .error .assertFail ∧
    P.WF ∧ Rel.multSparse .release P B = .error .outOfBounds :=
  ⟨⟨2, 5, [0, 1, 2], [1, 0], [3, 4]⟩, ⟨2, 2, [0, 1, 2], [0, 1], [1, 5]⟩, ⟨1, 3, [0, 2], [0, 2], [3, 4]⟩,
    by decide, by decide, by decide, by decide, by decide, by decide⟩

/-- The same with dense matrices. -/
example : ∃ (A P : Csr Int) (B C : Dense Int), A.WF ∧ B.WF ∧ Rel.multDense .release A B C = .ok ⟨2, 2, [6, 4, 12, 12]⟩ ∧
    Rel.multCTDense .release A B C = .ok ⟨2, 2, [6, 12, 4, 12]⟩ ∧ P.WF ∧ Rel.multDense .release P B C = .error .outOfBounds ∧
    Rel.multATDense .release P B C = .ok ⟨3, 2, [3, 0, 4, 9, 0, 12]⟩ :=
  ⟨⟨2, 5, [0, 1, 2], [1, 0], [3, 4]⟩, ⟨1, 3, [0, 2], [0, 2], [3, 4]⟩, ⟨2, 2, [1, 2, 3, 4]⟩, ⟨0, 0, []⟩,
    by decide, by decide, by decide, by decide, by decide, by decide, by decide⟩

/-- A permutation with a column that does not exist is accepted; `Mult` then reads outside the vector. -/
example : ∃ A B : Csr Int, A.WF ∧ Rel.permuteCols .release A [0, 7] = .ok B ∧ ¬ B.WF ∧ B.indices = [7, 0] ∧ A.permuteCols [0, 7] = .error .assertFail ∧
    Rel.mult .release B [1, 1] [0, 0] = .error .outOfBounds ∧ Rel.getDiag .release (⟨1, 2, [0, 2], [1, 0], [8, 9]⟩ : Csr Int) = .ok [9] :=
  ⟨⟨2, 2, [0, 1, 2], [1, 0], [3, 4]⟩, ⟨2, 2, [0, 1, 2], [7, 0], [3, 4]⟩, by decide, by decide, by decide, by decide, by decide, by decide, by decide⟩

end Linalg
