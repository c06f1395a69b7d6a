import Verif.Model.ParTest
import Verif.Spec.ParTest
import Verif.Props.ParSplit
import Verif.Props.ParUpdate
import Verif.Props.Lobpcg
import Verif.Props.RingTest

/-!
# The test program of the parallel module (C119)
-/

namespace Linalg
open Cpp

variable {α R K : Type}

namespace Par

/-- Where the ranges of the processes start. -/
def splitStarts (part : List Int) (P : Nat) : List Int := (List.range (P + 1)).map (fun p : Nat => below part p)

theorem vecAt_splitStarts (part : List Int) (P p : Nat) (h : p ≤ P) : vecAt (splitStarts part P) p = below part p := by
  rw [vecAt_nat _ p (by simp [splitStarts]; omega)]
  simp [splitStarts]

theorem splitStarts_dist (part : List Int) (P : Nat) (hpart : ∀ x ∈ part, 0 ≤ x ∧ x < (P : Int)) (Ms : List (ParMat α)) (hl : Ms.length = P)
    (h : ∀ (r : Nat) (h : r < Ms.length),
      Ms[r].WF (below part r) (below part (r + 1)) part.length (below part r) (below part (r + 1)) part.length) :
    IsDist Ms (splitStarts part P) (splitStarts part P) := by
  have h0 : vecAt (splitStarts part P) 0 = 0 := by
    have := vecAt_splitStarts part P 0 (by omega)
    rw [Nat.cast_zero] at this
    rw [this, below_zero part (fun x hx => (hpart x hx).1)]
  have hm : (splitStarts part P).Pairwise (· ≤ ·) := by
    unfold splitStarts
    rw [List.pairwise_map]
    exact List.pairwise_lt_range.imp (fun {a b} hab => below_mono part (by omega))
  refine ⟨by simp [splitStarts, hl], by simp [splitStarts, hl], h0, h0, hm, hm, ?_⟩
  intro p hp
  have e1 := vecAt_splitStarts part P p (by omega)
  have e2 := vecAt_splitStarts part P (p + 1) (by omega)
  have e3 := vecAt_splitStarts part P P le_rfl
  rw [below_all part P (fun x hx => (hpart x hx).2)] at e3
  push_cast at e2
  rw [hl, e1, e2, e3]
  exact h p hp

end Par

/-- **C119.**  `ParSplit` and then `AddDiag(s)`: together the processes hold the matrix of `A` in the new numbering (below the diagonal of a
diagonal block the mirrored entry, `C66_split`), with `s` added at the diagonal positions that `A` stores. -/
theorem C119_matrix [AddCommMonoid R] (srt : Csr.Sorter) (hs : IsSort srt) (reorder : Csr R → Csr R) (hre : Reorders reorder) (P : Nat)
    (A : Csr R) (hA : A.WF) (hsq : A.rows = A.cols) (part : List Int) (hlen : A.rows = (part.length : Int))
    (hpart : ∀ x ∈ part, 0 ≤ x ∧ x < (P : Int)) (s : R) :
    ∃ Ms, Par.splitShift srt reorder P A part s = .ok Ms ∧ Ms.length = P ∧
      Par.IsDist Ms (Par.splitStarts part P) (Par.splitStarts part P) ∧
      ∀ v w, 0 ≤ v → v < (part.length : Int) → 0 ≤ w → w < (part.length : Int) →
        Par.globalCoef Ms (Par.newIndex part v) (Par.newIndex part w) =
          (if vecAt part v = vecAt part w ∧ w < v then A.coef w v else A.coef v w) + if v = w ∧ A.Stored v v then s else 0 := by
  obtain ⟨Ms, h1, h2, h3⟩ := C66_split srt hs reorder hre P A hA hsq part hlen hpart
  have hpat := C66_pattern srt hs reorder hre P A hA hsq part hlen hpart Ms h1
  have hadd : ∀ (r : Nat) (h : r < Ms.length), ∃ N, Ms[r].addDiagVal s = .ok N ∧
      N.WF (Par.below part r) (Par.below part (r + 1)) part.length (Par.below part r) (Par.below part (r + 1)) part.length ∧
      ∀ i c, 0 ≤ i → i < Par.below part (r + 1) - Par.below part r →
        N.coef i c = Ms[r].coef i c + if c = Par.below part r + i then ((Ms[r].diag.row i).map Prod.fst).count i • s else 0 := by
    intro r h
    have w := (h3 r h).1
    rw [C88_addDiagVal Ms[r] _ _ _ _ _ _ w rfl s]
    obtain ⟨N, n1, n2, n3⟩ := C88_addDiag Ms[r] _ _ _ _ _ _ w rfl
      (List.replicate (Par.below part (r + 1) - Par.below part r).toNat s) (by simp)
    refine ⟨N, n1, n2, fun i c i0 i1 => ?_⟩
    rw [n3 i c i0 i1, vecAt_int _ i0 (by simp; omega)]
    simp
  obtain ⟨Ns, hN⟩ : ∃ Ns : List (ParMat R), Ms.mapM (fun M => M.addDiagVal s) = .ok Ns ∧ Ns.length = Ms.length ∧
      ∀ (r : Nat) (h : r < Ms.length) (h' : r < Ns.length), Ms[r].addDiagVal s = .ok Ns[r] := by
    have hall : ∀ M ∈ Ms, ∃ N, M.addDiagVal s = .ok N := by
      intro M hM
      obtain ⟨r, hr, rfl⟩ := List.getElem_of_mem hM
      obtain ⟨N, n1, -⟩ := hadd r hr
      exact ⟨N, n1⟩
    classical
    choose! f hf using hall
    refine ⟨Ms.map f, mapM_ok Ms _ f hf, by simp, fun r h h' => ?_⟩
    rw [List.getElem_map]
    exact hf _ (List.getElem_mem h)
  obtain ⟨g1, g2, g3⟩ := hN
  have hshare : ∀ (r : Nat) (h : r < Ns.length),
      Ns[r].WF (Par.below part r) (Par.below part (r + 1)) part.length (Par.below part r) (Par.below part (r + 1)) part.length := by
    intro r h
    obtain ⟨N, n1, n2, -⟩ := hadd r (by omega)
    rw [g3 r (by omega) h] at n1
    rw [Except.ok.inj n1]
    exact n2
  have hdist := Par.splitStarts_dist part P hpart Ns (by omega) hshare
  refine ⟨Ns, ?_, by omega, hdist, ?_⟩
  · unfold Par.splitShift
    rw [h1, ok_bind, g1]
  · intro v w v0 v1 w0 w1
    have hp := hpart (vecAt part v) (by rw [vecAt_int part v0 v1]; exact List.getElem_mem _)
    obtain ⟨r, hr⟩ := Int.eq_ofNat_of_zero_le hp.1
    have hrN : r < Ns.length := by omega
    have hrM : r < Ms.length := by omega
    have hrng := Par.newIndex_range part v v0 v1
    rw [hr] at hrng
    have e1 := Par.vecAt_splitStarts part P r (by omega)
    have e2 := Par.vecAt_splitStarts part P (r + 1) (by omega)
    push_cast at e2
    have hown := Par.globalCoef_owner hdist r hrN (i := Par.newIndex part v - Par.below part r) (by omega) (by rw [e1, e2]; omega)
      (Par.newIndex part w)
    rw [e1, add_sub_cancel] at hown
    rw [hown]
    obtain ⟨N, n1, n2, n3⟩ := hadd r hrM
    rw [g3 r hrM hrN] at n1
    rw [Except.ok.inj n1, n3 _ _ (by omega) (by omega), (h3 r hrM).2 v w v0 v1 w0 w1 hr, hr]
    congr 1
    · simp only [eq_comm (a := (r : Int))]
    obtain ⟨hnd, hst⟩ := hpat r hrM
    by_cases hvw : v = w
    · subst hvw
      rw [if_pos (by ring)]
      have := hst v v v0 v1 v0 v1 hr hr
      rw [if_pos le_rfl] at this
      by_cases hS : A.Stored v v
      · rw [if_pos ⟨rfl, hS⟩, List.count_eq_one_of_mem (hnd _) (this.mpr hS), one_smul]
      · rw [if_neg (fun x => hS x.2), List.count_eq_zero_of_not_mem (fun x => hS (this.mp x)), zero_smul]
    · rw [if_neg, if_neg (fun x => hvw x.1)]
      intro e
      exact hvw (Par.newIndex_inj part v w v0 v1 w0 w1 (by omega))

/-! ## The spectrum -/

namespace ParTest

theorem form_nonneg [Field K] [LinearOrder K] [IsStrictOrderedRing K] {n : Int} {a : Int → Int → K} (h : LaplaceOn n a) (x : Int → K) :
    0 ≤ dotFn n x (matVec n a x) ∧ (dotFn n x (matVec n a x) = 0 → ∀ i j, 0 ≤ i → i < n → 0 ≤ j → j < n → a i j ≠ 0 → x i = x j) := by
  have hf := RingTest.form_eq n a h.symm h.sum x
  have ht : ∀ i ∈ Finset.Ico (0 : Int) n, ∀ j ∈ Finset.Ico (0 : Int) n, a i j * ((x i - x j) * (x i - x j)) ≤ 0 := by
    intro i hi j hj
    rw [Finset.mem_Ico] at hi hj
    by_cases he : i = j
    · subst he; simp
    · exact mul_nonpos_of_nonpos_of_nonneg (h.off i j hi.1 hi.2 hj.1 hj.2 he) (mul_self_nonneg _)
  have hi : ∀ i ∈ Finset.Ico (0 : Int) n, ∑ j ∈ Finset.Ico (0 : Int) n, a i j * ((x i - x j) * (x i - x j)) ≤ 0 :=
    fun i hi => Finset.sum_nonpos (ht i hi)
  constructor
  · have := Finset.sum_nonpos hi
    linarith
  · intro hx i j i0 i1 j0 j1 hne
    rw [hx, mul_zero] at hf
    have h2 := (Finset.sum_eq_zero_iff_of_nonpos hi).mp (by linarith) i (Finset.mem_Ico.mpr ⟨i0, i1⟩)
    have h3 := (Finset.sum_eq_zero_iff_of_nonpos (ht i (Finset.mem_Ico.mpr ⟨i0, i1⟩))).mp h2 j (Finset.mem_Ico.mpr ⟨j0, j1⟩)
    rcases mul_eq_zero.mp h3 with h4 | h4
    · exact absurd h4 hne
    · have := mul_self_eq_zero.mp h4
      linarith

/-- For an eigenvector of `a + s`, the eigenvalue times the square of the vector is the form of `a` and `s` times that square. -/
theorem form_eigen [Field K] {n : Int} {a m : Int → Int → K} {s : K}
    (hm : ∀ g c, 0 ≤ g → g < n → 0 ≤ c → c < n → m g c = a g c + if g = c then s else 0) {x : Int → K} {l : K} (h : EigenOn n m x l) :
    (l - s) * dotFn n x x = dotFn n x (matVec n a x) := by
  unfold dotFn matVec
  rw [Finset.mul_sum]
  apply Finset.sum_congr rfl
  intro g hg
  have hg' := Finset.mem_Ico.mp hg
  have h1 := h.eq g hg'.1 hg'.2
  have h2 : ∑ c ∈ Finset.Ico (0 : Int) n, m g c * x c = ∑ c ∈ Finset.Ico (0 : Int) n, a g c * x c + s * x g := by
    rw [Finset.sum_congr rfl (fun c hc => by
      have hc' := Finset.mem_Ico.mp hc
      rw [hm g c hg'.1 hg'.2 hc'.1 hc'.2, add_mul, ite_mul, zero_mul])]
    rw [Finset.sum_add_distrib, Finset.sum_ite_eq, if_pos hg]
  rw [h2] at h1
  linear_combination -(x g) * h1

theorem dot_pos [Field K] [LinearOrder K] [IsStrictOrderedRing K] {n : Int} {x : Int → K} (h : ∃ g, 0 ≤ g ∧ g < n ∧ x g ≠ 0) :
    0 < dotFn n x x := by
  obtain ⟨g, g0, g1, hg⟩ := h
  unfold dotFn
  exact Finset.sum_pos' (fun i _ => mul_self_nonneg _) ⟨g, Finset.mem_Ico.mpr ⟨g0, g1⟩, mul_self_pos.mpr hg⟩

end ParTest

/-- **C119.**  The eigenvalues of a Laplacian with `s` added on the diagonal: none is lower than `s`, the constant vectors belong to `s`, and if
the graph is connected only they do. -/
theorem C119_spectrum [Field K] [LinearOrder K] [IsStrictOrderedRing K] (n : Int) (a m : Int → Int → K) (s : K) (ha : LaplaceOn n a)
    (hm : ∀ g c, 0 ≤ g → g < n → 0 ≤ c → c < n → m g c = a g c + if g = c then s else 0) :
    (∀ x l, EigenOn n m x l → s ≤ l) ∧ (0 < n → EigenOn n m (fun _ => 1) s) ∧
    (ConnectedOn n a → ∀ x, EigenOn n m x s → ∀ i j, 0 ≤ i → i < n → 0 ≤ j → j < n → x i = x j) := by
  refine ⟨?_, ?_, ?_⟩
  · intro x l h
    have h1 := ParTest.form_eigen hm h
    have h2 := (ParTest.form_nonneg ha x).1
    have h3 := ParTest.dot_pos h.ne
    rw [← h1] at h2
    have := nonneg_of_mul_nonneg_left h2 h3
    linarith
  · intro hn
    refine ⟨fun g g0 g1 => ?_, ⟨0, le_rfl, hn, one_ne_zero⟩⟩
    rw [Finset.sum_congr rfl (fun c hc => by
      have hc' := Finset.mem_Ico.mp hc
      rw [hm g c g0 g1 hc'.1 hc'.2, mul_one])]
    rw [Finset.sum_add_distrib, ha.sum g g0 g1, Finset.sum_ite_eq, if_pos (Finset.mem_Ico.mpr ⟨g0, g1⟩), zero_add, mul_one]
  · intro hc x h i j i0 i1 j0 j1
    have h1 := ParTest.form_eigen hm h
    rw [sub_self, zero_mul] at h1
    have h2 := (ParTest.form_nonneg ha x).2 h1.symm
    have h3 := hc i j i0 i1 j0 j1
    induction h3 with
    | refl => rfl
    | tail h4 h5 ih =>
      rw [ih h5.1.1 h5.1.2]
      exact h2 _ _ h5.1.1 h5.1.2 h5.2.1.1 h5.2.1.2 h5.2.2

/-- **C119.**  So the lowest eigenvalue of it is `s`, and the second is higher if and only if the graph is connected. -/
theorem C119_lowest [Field K] [LinearOrder K] [IsStrictOrderedRing K] (n : Int) (a m : Int → Int → K) (s : K) (ha : LaplaceOn n a)
    (hm : ∀ g c, 0 ≤ g → g < n → 0 ≤ c → c < n → m g c = a g c + if g = c then s else 0) (e : List K) (he : LowestOn n m e) :
    (∀ h : 0 < e.length, e[0] = s) ∧ (∀ h : 1 < e.length, s < e[1] ↔ ConnectedOn n a) := by
  obtain ⟨h1, h2, h3⟩ := C119_spectrum n a m s ha hm
  obtain ⟨u, u1, u2, u3⟩ := he
  have first : ∀ h : 0 < e.length, e[0] = s := by
    intro h
    have hn : 0 < n := by
      obtain ⟨g, g0, g1, -⟩ := (u1 0 h).ne
      omega
    refine le_antisymm (u3 0 h _ s (h2 hn) ?_) (h1 _ _ (u1 0 h))
    rintro ⟨c, hc⟩
    have := hc 0 le_rfl hn
    simp at this
  refine ⟨first, fun h => ⟨?_, ?_⟩⟩
  · intro hlt
    by_contra hc
    unfold ConnectedOn at hc
    push Not at hc
    obtain ⟨i, j, i0, i1, j0, j1, hij⟩ := hc
    classical
    let step : Int → Int → Prop := fun s t => (0 ≤ s ∧ s < n) ∧ (0 ≤ t ∧ t < n) ∧ a s t ≠ 0
    let x : Int → K := fun t => if Relation.ReflTransGen step i t then 1 else 0
    have xi : x i = 1 := if_pos Relation.ReflTransGen.refl
    have xj : x j = 0 := if_neg hij
    have hx : EigenOn n m x s := by
      refine ⟨fun g g0 g1 => ?_, ⟨i, i0, i1, by rw [xi]; exact one_ne_zero⟩⟩
      rw [Finset.sum_congr rfl (fun c hc => by
        have hc' := Finset.mem_Ico.mp hc
        rw [hm g c g0 g1 hc'.1 hc'.2, add_mul, ite_mul, zero_mul])]
      rw [Finset.sum_add_distrib, Finset.sum_ite_eq, if_pos (Finset.mem_Ico.mpr ⟨g0, g1⟩)]
      have z : ∑ c ∈ Finset.Ico (0 : Int) n, a g c * x c = 0 := by
        by_cases hg : Relation.ReflTransGen step i g
        · rw [← ha.sum g g0 g1]
          apply Finset.sum_congr rfl
          intro c hc
          have hc' := Finset.mem_Ico.mp hc
          by_cases hz : a g c = 0
          · rw [hz, zero_mul]
          · rw [show x c = 1 from if_pos (hg.tail ⟨⟨g0, g1⟩, hc', hz⟩), mul_one]
        · apply Finset.sum_eq_zero
          intro c hc
          have hc' := Finset.mem_Ico.mp hc
          by_cases hz : a g c = 0
          · rw [hz, zero_mul]
          · rw [show x c = 0 from if_neg (fun h' => hg (h'.tail ⟨hc', ⟨g0, g1⟩, by
              rwa [ha.symm c g hc'.1 hc'.2 g0 g1]⟩)), mul_zero]
      rw [z, zero_add]
    by_cases hone : CombOn n u 1 (fun _ => (1 : K))
    · have hnx : ¬ CombOn n u 1 x := by
        rintro ⟨d, hd⟩
        obtain ⟨c, hc⟩ := hone
        have q1 := hc i i0 i1
        have q2 := hc j j0 j1
        have q3 := hd i i0 i1
        have q4 := hd j j0 j1
        rw [Finset.sum_range_one] at q1 q2 q3 q4
        rw [xi] at q3
        rw [xj] at q4
        have hc0 : c 0 ≠ 0 := fun z => by rw [z, zero_mul] at q1; exact one_ne_zero q1
        have huu : u 0 i = u 0 j := mul_left_cancel₀ hc0 (q1.symm.trans q2)
        rw [huu, ← q4] at q3
        exact one_ne_zero q3
      exact absurd (u3 1 h x s hx hnx) (not_le.mpr hlt)
    · exact absurd (u3 1 h _ s (h2 (by omega)) hone) (not_le.mpr hlt)
  intro hc
  refine lt_of_le_of_ne (h1 _ _ (u1 1 h)) ?_
  intro heq
  have v0 := u1 0 (by omega)
  rw [first (by omega)] at v0
  have v1 := u1 1 h
  rw [← heq] at v1
  have c0 := h3 hc _ v0
  have c1 := h3 hc _ v1
  obtain ⟨g, g0, g1, hg⟩ := v0.ne
  refine u2 1 h ⟨fun _ => u 1 g / u 0 g, fun i i0 i1 => ?_⟩
  rw [Finset.sum_range_one, c0 i g i0 i1 g0 g1, c1 i g i0 i1 g0 g1, div_mul_cancel₀ _ hg]

/-! ## The program -/

namespace Par

theorem exists_inverse {n : Nat} {σ : Int → Int} (into : ∀ v, 0 ≤ v → v < (n : Int) → 0 ≤ σ v ∧ σ v < (n : Int))
    (inj : ∀ v w, 0 ≤ v → v < (n : Int) → 0 ≤ w → w < (n : Int) → σ v = σ w → v = w) :
    ∃ τ : Int → Int, (∀ g, 0 ≤ g → g < (n : Int) → (0 ≤ τ g ∧ τ g < (n : Int)) ∧ σ (τ g) = g) ∧
      ∀ v, 0 ≤ v → v < (n : Int) → τ (σ v) = v := by
  have hsurj : ∀ g, 0 ≤ g → g < (n : Int) → ∃ v, (0 ≤ v ∧ v < (n : Int)) ∧ σ v = g := by
    intro g g0 g1
    have hmaps : Set.MapsTo σ (Finset.Ico (0 : Int) n) (Finset.Ico (0 : Int) n) := by
      intro v hv
      simp only [Finset.coe_Ico, Set.mem_Ico] at hv ⊢
      exact into v hv.1 hv.2
    have hinj : Set.InjOn σ (Finset.Ico (0 : Int) n) := by
      intro v hv w hw hvw
      simp only [Finset.coe_Ico, Set.mem_Ico] at hv hw
      exact inj v w hv.1 hv.2 hw.1 hw.2 hvw
    have := Finset.surjOn_of_injOn_of_card_le σ hmaps hinj le_rfl
    obtain ⟨v, hv, rfl⟩ := this (show g ∈ ((Finset.Ico (0 : Int) n : Finset Int) : Set Int) by simp; omega)
    simp only [Finset.coe_Ico, Set.mem_Ico] at hv
    exact ⟨v, hv, rfl⟩
  classical
  choose! τ h1 h2 using hsurj
  refine ⟨τ, fun g g0 g1 => ⟨h1 g g0 g1, h2 g g0 g1⟩, fun v v0 v1 => ?_⟩
  have hi := into v v0 v1
  have ht := h1 _ hi.1 hi.2
  exact inj _ _ ht.1 ht.2 v0 v1 (h2 _ hi.1 hi.2)

theorem laplace_renumber [AddCommMonoid K] [LE K] {n : Nat} {a : Int → Int → K} (ha : LaplaceOn n a) {σ τ : Int → Int}
    (into : ∀ v, 0 ≤ v → v < (n : Int) → 0 ≤ σ v ∧ σ v < (n : Int))
    (hτ : ∀ g, 0 ≤ g → g < (n : Int) → (0 ≤ τ g ∧ τ g < (n : Int)) ∧ σ (τ g) = g) (hσ : ∀ v, 0 ≤ v → v < (n : Int) → τ (σ v) = v) :
    LaplaceOn n (fun g c => a (τ g) (τ c)) := by
  refine ⟨fun i j i0 i1 j0 j1 => ?_, fun i i0 i1 => ?_, fun i j i0 i1 j0 j1 hij => ?_⟩
  · have hi := (hτ i i0 i1).1
    have hj := (hτ j j0 j1).1
    exact ha.symm _ _ hi.1 hi.2 hj.1 hj.2
  · have hi := (hτ i i0 i1).1
    rw [← ha.sum _ hi.1 hi.2]
    refine Finset.sum_nbij' τ σ ?_ ?_ ?_ ?_ (fun _ _ => rfl)
    · intro g hg
      rw [Finset.mem_Ico] at hg ⊢
      exact (hτ g hg.1 hg.2).1
    · intro g hg
      rw [Finset.mem_Ico] at hg ⊢
      exact into g hg.1 hg.2
    · intro g hg
      rw [Finset.mem_Ico] at hg
      exact (hτ g hg.1 hg.2).2
    · intro g hg
      rw [Finset.mem_Ico] at hg
      exact hσ g hg.1 hg.2
  · have hi := hτ i i0 i1
    have hj := hτ j j0 j1
    refine ha.off _ _ hi.1.1 hi.1.2 hj.1.1 hj.1.2 (fun e => hij ?_)
    rw [← hi.2, ← hj.2, e]

theorem connected_renumber [Zero K] {n : Nat} {a : Int → Int → K} (ha : ConnectedOn n a) {σ τ : Int → Int}
    (into : ∀ v, 0 ≤ v → v < (n : Int) → 0 ≤ σ v ∧ σ v < (n : Int))
    (hτ : ∀ g, 0 ≤ g → g < (n : Int) → (0 ≤ τ g ∧ τ g < (n : Int)) ∧ σ (τ g) = g) (hσ : ∀ v, 0 ≤ v → v < (n : Int) → τ (σ v) = v) :
    ConnectedOn n (fun g c => a (τ g) (τ c)) := by
  intro i j i0 i1 j0 j1
  have hi := hτ i i0 i1
  have hj := hτ j j0 j1
  have h := ha _ _ hi.1.1 hi.1.2 hj.1.1 hj.1.2
  have h' := Relation.ReflTransGen.lift (p := fun s t => (0 ≤ s ∧ s < (n : Int)) ∧ (0 ≤ t ∧ t < (n : Int)) ∧ a (τ s) (τ t) ≠ 0) σ
    (fun s t hst => ⟨into s hst.1.1 hst.1.2, into t hst.2.1.1 hst.2.1.2, by
      rw [hσ s hst.1.1 hst.1.2, hσ t hst.2.1.1 hst.2.1.2]; exact hst.2.2⟩) _ _ h
  simp only [Function.onFun, hi.2, hj.2] at h'
  exact h'

end Par

/-- **C119.**  The matrix of the test program for a Laplacian that stores its diagonal: its lowest eigenvalue is 1, and its second lowest is
higher if and only if the graph is connected. -/
theorem C119_eigenvalues [Field K] [LinearOrder K] [IsStrictOrderedRing K] (srt : Csr.Sorter) (hs : IsSort srt) (reorder : Csr K → Csr K)
    (hre : Reorders reorder) (P : Nat) (A : Csr K) (hA : A.WF) (hsq : A.rows = A.cols) (part : List Int)
    (hlen : A.rows = (part.length : Int)) (hpart : ∀ x ∈ part, 0 ≤ x ∧ x < (P : Int)) (hL : LaplaceOn A.rows A.coef)
    (hd : ∀ i, 0 ≤ i → i < A.rows → A.Stored i i) (s : K) (Ms : List (ParMat K)) (h : Par.splitShift srt reorder P A part s = .ok Ms)
    (e : List K) (he : LowestOn A.rows (Par.globalCoef Ms) e) :
    (∀ h : 0 < e.length, e[0] = s) ∧ (∀ h : 1 < e.length, s < e[1] ↔ ConnectedOn A.rows A.coef) := by
  obtain ⟨Ms', h1, h2, h3, h4⟩ := C119_matrix srt hs reorder hre P A hA hsq part hlen hpart s
  rw [h] at h1
  obtain rfl := Except.ok.inj h1
  rw [hlen] at hL hd he ⊢
  have into := (C66_numbering part).1
  obtain ⟨τ, hτ, hσ⟩ := Par.exists_inverse into (fun v w v0 v1 w0 w1 => Par.newIndex_inj part v w v0 v1 w0 w1)
  have hL' := Par.laplace_renumber hL into hτ hσ
  have hm : ∀ g c, 0 ≤ g → g < (part.length : Int) → 0 ≤ c → c < (part.length : Int) →
      Par.globalCoef Ms g c = A.coef (τ g) (τ c) + if g = c then s else 0 := by
    intro g c g0 g1 c0 c1
    have hg := hτ g g0 g1
    have hc := hτ c c0 c1
    have := h4 _ _ hg.1.1 hg.1.2 hc.1.1 hc.1.2
    rw [hg.2, hc.2] at this
    rw [this]
    congr 1
    · split
      · exact hL.symm _ _ hc.1.1 hc.1.2 hg.1.1 hg.1.2
      · rfl
    · by_cases hgc : g = c
      · subst hgc
        rw [if_pos ⟨rfl, hd _ hg.1.1 hg.1.2⟩, if_pos rfl]
      · rw [if_neg (fun x => hgc (by rw [← hg.2, ← hc.2, x.1])), if_neg hgc]
  obtain ⟨k1, k2⟩ := C119_lowest (part.length : Int) _ (Par.globalCoef Ms) s hL' hm e he
  refine ⟨k1, fun h => ⟨fun hlt => ?_, fun hc => (k2 h).mpr (Par.connected_renumber hc into hτ hσ)⟩⟩
  have hc := Par.connected_renumber ((k2 h).mp hlt) (fun g g0 g1 => (hτ g g0 g1).1)
    (fun v v0 v1 => ⟨into v v0 v1, hσ v v0 v1⟩) (fun g g0 g1 => (hτ g g0 g1).2)
  intro i j i0 i1 j0 j1
  refine Relation.ReflTransGen.mono ?_ _ _ (hc i j i0 i1 j0 j1)
  rintro a b ⟨ha, hb, hab⟩
  refine ⟨ha, hb, ?_⟩
  simpa only [hσ a ha.1 ha.2, hσ b hb.1 hb.2] using hab

namespace Par

theorem mapM_mem_ok {β γ : Type} {l : List β} {f : β → Res γ} {r : List γ} (h : l.mapM f = .ok r) (b : β) (hb : b ∈ l) :
    ∃ c, f b = .ok c := by
  induction l generalizing r with
  | nil => simp at hb
  | cons a t ih =>
    rw [List.mapM_cons, bind_eq_ok] at h
    obtain ⟨c, hc, h⟩ := h
    rw [bind_eq_ok] at h
    obtain ⟨cs, hcs, _⟩ := h
    rcases List.mem_cons.1 hb with rfl | hb
    · exact ⟨c, hc⟩
    · exact ih hcs hb

theorem testEvals_eq [LinearOrder K] [AddGroup K] (tol first second : K) (ev : List K) (h : ev.length = 2) :
    testEvals tol first second ev = .ok () ↔ |vecAt ev 0 - first| < tol ∧ |vecAt ev 1 - second| < tol := by
  match ev, h with
  | [a, b], _ =>
    have e0 : rd [a, b] 0 = .ok a := rfl
    have e1 : rd [a, b] 1 = .ok b := rfl
    have v0 : vecAt [a, b] 0 = a := rfl
    have v1 : vecAt [a, b] 1 = b := rfl
    unfold testEvals
    rw [e0, ok_bind, v0, v1]
    by_cases h1 : |a - first| < tol
    · rw [cassert_true h1, ok_bind, e1, ok_bind, cassert_ok_iff]
      exact ⟨fun h => ⟨h1, h⟩, fun h => h.2⟩
    · rw [cassert_false h1]
      refine ⟨fun h => ?_, fun h => absurd h.1 h1⟩
      have h' : (Except.error Err.assertFail : Res Unit) = .ok () := h
      cases h'

theorem eval_starts [Zero K] [One K] {A : List (List K) → List (List K)} {T : List (List K) → List (List K) → List (List K)} {o : List Int}
    {pre : Bool} {np n : Nat} {q : Ask K} (h : q.Proper A T o pre np n) (hl : o.length = np + 1) :
    StartVecs (q.eval A T).2 o n ∧ (q.eval A T).1.length = np ∧ ∀ ev ∈ (q.eval A T).1, ev.length = n := by
  induction h with
  | @done evals vecs he he' hv hv' hs =>
    refine ⟨⟨?_, hv', ?_⟩, he, he'⟩
    · show o.length = vecs.length + 1
      omega
    intro p hp v hmem
    obtain ⟨i, hi, rfl⟩ := List.getElem_of_mem hmem
    change p < vecs.length at hp
    change i < (vecs[p]).length at hi
    have hn := hv' vecs[p] (List.getElem_mem hp)
    have := (hs i (by omega)).share p (by rw [List.length_map]; exact hp)
    rw [List.getElem_map, List.getD_eq_getElem?_getD, List.getElem?_eq_getElem hi] at this
    exact this
  | matvec _ _ _ ih => exact ih
  | precond _ _ _ _ ih => exact ih

theorem testLoop_eq [Field K] [LinearOrder K] [IsStrictOrderedRing K] (hypre : Bool → List (List (List K)) → Ask K) (mv : Matvec K)
    (hmv : IsMatvec mv) (rand : Nat → List (List (List K)) → List (List (List K))) (Ms : List (ParMat K)) (o : List Int) (hM : IsDist Ms o o)
    (hrand : ∀ k x, StartVecs x o 2 → StartVecs (rand k x) o 2) (e : List K) (he : e.length = 2) (d tol first second : K)
    (ops : List (ParOp K)) :
    ∀ (k : Nat) (x : List (List (List K))), StartVecs x o 2 → (∀ P ∈ ops, FindsLowest hypre Ms o e d P) →
      ((|e[0] - first| + d ≤ tol → |e[1] - second| + d ≤ tol →
          ∃ y, testLoop hypre rand (opOf mv Ms) tol first second k ops x = .ok y ∧ StartVecs y o 2) ∧
        ∀ y, testLoop hypre rand (opOf mv Ms) tol first second k ops x = .ok y → ops ≠ [] → 0 < Ms.length →
          |e[0] - first| < tol + d ∧ |e[1] - second| < tol + d) := by
  induction ops with
  | nil => exact fun k x hx _ => ⟨fun _ _ => ⟨x, rfl, hx⟩, fun _ _ h => absurd rfl h⟩
  | cons P Ps ih =>
    intro k x hx hP
    have hrl := hM.rows_len
    obtain ⟨T, hT, hfind⟩ := hP P (by simp)
    have hx' := hrand k x hx
    rw [← he] at hx'
    obtain ⟨A, hA, hrun⟩ := C114_matrix hypre mv hmv Ms o hM (some P) T (fun Q hQ => by cases hQ; exact hT) (rand k x) e.length hx'
      (fun A hA => (hfind A hA _ hx').1)
    obtain ⟨hprop, hclose⟩ := hfind A hA _ hx'
    obtain ⟨s1, s2, s3⟩ := eval_starts hprop hx'.len
    obtain ⟨i1, i2⟩ := ih (k + 1) _ (he ▸ s1) (fun Q hQ => hP Q (by simp [hQ]))
    unfold testLoop
    rw [hrun, ok_bind]
    simp only [Option.isSome_some]
    constructor
    · intro h0 h1
      have hm : ((hypre true (rand k x)).eval A T).1.mapM (testEvals tol first second) =
          .ok (((hypre true (rand k x)).eval A T).1.map (fun _ => ())) := by
        refine mapM_ok _ _ _ (fun ev hev => ?_)
        rw [testEvals_eq tol first second ev ((s3 ev hev).trans he)]
        have c0 := hclose ev hev 0 (by omega)
        have c1 := hclose ev hev 1 (by omega)
        rw [abs_lt] at c0 c1 ⊢
        rw [abs_lt]
        have l0 := abs_le.mp (le_sub_iff_add_le.mpr h0)
        have l1 := abs_le.mp (le_sub_iff_add_le.mpr h1)
        simp only [Nat.cast_zero, Nat.cast_one] at c0 c1
        exact ⟨⟨by linarith [c0.1, l0.1], by linarith [c0.2, l0.2]⟩, ⟨by linarith [c1.1, l1.1], by linarith [c1.2, l1.2]⟩⟩
      rw [hm, ok_bind]
      exact i1 h0 h1
    · intro y hy _ hpos
      rw [bind_eq_ok] at hy
      obtain ⟨us, hus, _⟩ := hy
      have hl := hx'.len
      have hne : 0 < ((hypre true (rand k x)).eval A T).1.length := by omega
      have hev := List.getElem_mem hne
      have ht : testEvals tol first second (((hypre true (rand k x)).eval A T).1[0]) = .ok () :=
        (mapM_mem_ok hus _ hev).choose_spec
      rw [testEvals_eq _ _ _ _ ((s3 _ hev).trans he)] at ht
      have c0 := hclose _ hev 0 (by omega)
      have c1 := hclose _ hev 1 (by omega)
      simp only [Nat.cast_zero, Nat.cast_one] at c0 c1
      rw [abs_lt] at c0 c1
      obtain ⟨t0, t1⟩ := ht
      rw [abs_lt] at t0 t1
      rw [abs_lt, abs_lt]
      exact ⟨⟨by linarith [c0.2, t0.1], by linarith [c0.1, t0.2]⟩, ⟨by linarith [c1.2, t1.1], by linarith [c1.1, t1.2]⟩⟩

end Par

/-- **C119.**  The test program on two processes, for a Laplacian that stores its diagonal: if hypre finds the two lowest eigenvalues of the matrix
it is given up to `d` with every preconditioner, the program succeeds whenever the second of them is nearer than `tol - d` to the expected number;
and if it succeeds, that eigenvalue is nearer than `tol + d`.  The first is 1, whatever the graph. -/
theorem C119_run [Field K] [LinearOrder K] [IsStrictOrderedRing K] (srt : Csr.Sorter) (hs : IsSort srt) (reorder : Csr K → Csr K)
    (hre : Reorders reorder) (A : Csr K) (hA : A.WF) (hsq : A.rows = A.cols) (part : List Int)
    (hlen : A.rows = (part.length : Int)) (hpart : ∀ x ∈ part, 0 ≤ x ∧ x < 2) (hL : LaplaceOn A.rows A.coef)
    (hd : ∀ i, 0 ≤ i → i < A.rows → A.Stored i i) (mv : Par.Matvec K) (hmv : Par.IsMatvec mv)
    (hypre : Bool → List (List (List K)) → Ask K) (rand : Nat → List (List (List K)) → List (List (List K)))
    (hrand : ∀ k x, Par.StartVecs x (Par.splitStarts part 2) 2 → Par.StartVecs (rand k x) (Par.splitStarts part 2) 2)
    (ops : List (ParMat K) → List (ParOp K)) (tol d second : K) :
    ∃ Ms, Par.splitShift srt reorder 2 A part 1 = .ok Ms ∧ ∀ e : List K, (he : e.length = 2) → LowestOn A.rows (Par.globalCoef Ms) e →
      (∀ P ∈ ops Ms, Par.FindsLowest hypre Ms (Par.splitStarts part 2) e d P) →
      e[0] = 1 ∧ ((1 : K) < e[1] ↔ ConnectedOn A.rows A.coef) ∧
      (d ≤ tol → |e[1] - second| + d ≤ tol → ∃ y, Par.test srt reorder mv hypre rand ops tol 1 second 2 A part = .ok y) ∧
      (ops Ms ≠ [] → (∃ y, Par.test srt reorder mv hypre rand ops tol 1 second 2 A part = .ok y) → |e[1] - second| < tol + d) := by
  obtain ⟨Ms, h1, h2, h3, _⟩ := C119_matrix srt hs reorder hre 2 A hA hsq part hlen hpart 1
  refine ⟨Ms, h1, fun e he hlow hops => ?_⟩
  obtain ⟨k1, k2⟩ := C119_eigenvalues srt hs reorder hre 2 A hA hsq part hlen hpart hL hd 1 Ms h1 e hlow
  have hrows : ∀ (p : Nat) (h : p < Ms.length), Ms[p].rows =
      vecAt (Par.splitStarts part 2) (p + 1) - vecAt (Par.splitStarts part 2) p ∧ 0 ≤ Ms[p].rows := by
    intro p h
    have w := h3.share p h
    have a := w.rows_eq
    have b := w.diag_wf.rows_nonneg
    have c := w.diag_rows
    exact ⟨a, by omega⟩
  have hx0 : Ms.mapM (fun M => do
      let v ← mkVec M.rows (0 : K)
      mkVec 2 v) = .ok (Ms.map (fun M => List.replicate 2 (List.replicate M.rows.toNat (0 : K)))) := by
    refine mapM_ok _ _ _ (fun M hM => ?_)
    obtain ⟨q, hq, rfl⟩ := List.getElem_of_mem hM
    rw [mkVec_int (hrows q hq).2, ok_bind]
    exact mkVec_nat 2 _
  have hsx : Par.StartVecs (Ms.map (fun M => List.replicate 2 (List.replicate M.rows.toNat (0 : K)))) (Par.splitStarts part 2) 2 := by
    refine ⟨by rw [List.length_map]; exact h3.rows_len, ?_, ?_⟩
    · intro v hv
      obtain ⟨m, _, rfl⟩ := List.mem_map.1 hv
      exact List.length_replicate
    · intro p h v hv
      have h' : p < Ms.length := by simpa using h
      rw [List.getElem_map] at hv
      rw [(List.mem_replicate.1 hv).2, List.length_replicate]
      have := hrows p h'
      omega
  have htest : Par.test srt reorder mv hypre rand ops tol 1 second 2 A part = Par.testLoop hypre rand (Par.opOf mv Ms) tol 1 second 0 (ops Ms)
      (Ms.map (fun M => List.replicate 2 (List.replicate M.rows.toNat (0 : K)))) := by
    unfold Par.test
    rw [cassert_true rfl, ok_bind, h1, ok_bind, hx0, ok_bind]
  obtain ⟨l1, l2⟩ := Par.testLoop_eq hypre mv hmv rand Ms _ h3 hrand e he d tol 1 second (ops Ms) 0 _ hsx hops
  have e0 := k1 (by omega)
  refine ⟨e0, k2 (by omega), fun hdt h => ?_, fun hne h => ?_⟩
  · rw [htest]
    obtain ⟨y, hy, _⟩ := l1 (by rw [e0, sub_self, abs_zero, zero_add]; exact hdt) h
    exact ⟨y, hy⟩
  · rw [htest] at h
    obtain ⟨y, hy⟩ := h
    exact (l2 y hy hne (by omega)).2

/-- **C119.**  Not on two processes: the program stops. -/
theorem C119_procs [One K] [LinearOrder K] [AddGroup K] (srt : Csr.Sorter) (reorder : Csr K → Csr K) (mv : Par.Matvec K)
    (hypre : Bool → List (List (List K)) → Ask K) (rand : Nat → List (List (List K)) → List (List (List K)))
    (ops : List (ParMat K) → List (ParOp K)) (tol first second : K) (numProcs : Nat) (A : Csr K) (part : List Int) (h : numProcs ≠ 2) :
    Par.test srt reorder mv hypre rand ops tol first second numProcs A part = .error .assertFail := by
  unfold Par.test
  rw [cassert_false h]
  rfl

/-! ## Short forms -/

/-- **C78.**  `RAP(A, P)` is `Pᵀ A P`, and symmetric if `A` is. -/
theorem C78_congruence [CommRing R] (srt : Csr.Sorter) (hs : IsSort srt) (search : List Int → Int → Int) (hsearch : IsSearch search)
    (reorder : Csr R → Csr R) (hre : Reorders reorder) (extract : List (ParMat R) → ParMat R → Csr R) (hext : Par.IsExtractor extract)
    (pkgs : List Par.CommPkg) (As Ps : List (ParMat R)) (fo co : List Int) (hA : Par.IsDist As fo fo) (hP : Par.IsDist Ps fo co)
    (hl : As.length = Ps.length) (hpk : Ps.length > 1 → Par.IsCommPkg pkgs Ps co) :
    ∃ Cs, Par.rapSame srt search reorder extract pkgs As Ps = .ok Cs ∧ Cs.length = Ps.length ∧ Par.IsDist Cs co co ∧
      (∀ g c, Par.globalCoef Cs g c = ∑ k ∈ Finset.Ico (0 : Int) (vecAt fo As.length), ∑ j ∈ Finset.Ico (0 : Int) (vecAt fo As.length),
        Par.globalCoef Ps k g * (Par.globalCoef As k j * Par.globalCoef Ps j c)) ∧
      (SymmOn (vecAt fo As.length) (Par.globalCoef As) → ∀ g c, Par.globalCoef Cs g c = Par.globalCoef Cs c g) := by
  obtain ⟨Cs, h1, h2, h3, h4⟩ := C78_rap srt hs search hsearch reorder hre extract hext pkgs Ps As Ps fo fo co co hP hA hP (by omega) hl hpk
  refine ⟨Cs, h1, h2, h3, h4, fun hsym g c => ?_⟩
  rw [h4, h4, Finset.sum_comm]
  refine Finset.sum_congr rfl (fun j hj => Finset.sum_congr rfl (fun k hk => ?_))
  rw [Finset.mem_Ico] at hj hk
  rw [hsym k j hk.1 hk.2 hj.1 hj.2]
  ring

/-- **C65.**  What `ParSub(alpha, A, beta, B, marker)` returns on a process, exactly. -/
theorem C65_subMarker [Ring R] (srt : Csr.Sorter) (hs : IsSort srt) (reorder : Csr R → Csr R) (hre : Reorders reorder) (alpha beta : R)
    (A B : ParMat R) (r0 r1 rn c0 c1 cn : Int) (hA : A.WF r0 r1 rn c0 c1 cn) (hB : B.WF r0 r1 rn c0 c1 cn) (marker : List Int)
    (hmk : cn ≤ (marker.length : Int)) :
    ∃ M, Par.parSubMarker srt reorder alpha A beta B marker = .ok (M, List.replicate marker.length (-1)) ∧
      M.WF r0 r1 rn c0 c1 cn ∧ ∀ i c, M.coef i c = alpha * A.coef i c - beta * B.coef i c
        + (A.firstAt i c - alpha * A.firstAt i c)
        + (if ∃ e ∈ A.offdEntries, e.2.1 = c then 0 else B.firstAt i c + beta * B.firstAt i c) := by
  obtain ⟨M, h1, h2, h3⟩ := C65_exact srt hs reorder hre alpha (-beta) A B r0 r1 rn c0 c1 cn hA hB marker hmk
  refine ⟨M, h1, h2, fun i c => ?_⟩
  rw [h3]
  simp only [neg_mul, sub_neg_eq_add, ← sub_eq_add_neg]

/-! ## An instance -/

/-- The Laplacian of two vertices and the edge between them. -/
def Par.exPath : Csr ℚ := ⟨2, 2, [0, 2, 4], [0, 1, 0, 1], [1, -1, -1, 1]⟩

/-- The same on two processes, with 1 added on the diagonal. -/
def Par.exPathDist : List (ParMat ℚ) :=
  [⟨1, 1, [0, 1, 2], [0, 1, 2], ⟨1, 1, [0, 1], [0], [2]⟩, ⟨1, 1, [0, 1], [0], [-1]⟩, [1]⟩,
   ⟨1, 1, [1, 2, 2], [1, 2, 2], ⟨1, 1, [0, 1], [0], [2]⟩, ⟨1, 1, [0, 1], [0], [-1]⟩, [0]⟩]

theorem Par.exPath_lowest : LowestOn 2 (Par.globalCoef Par.exPathDist) [1, 3] := by
  have c00 : Par.globalCoef Par.exPathDist 0 0 = 2 := by decide +kernel
  have c01 : Par.globalCoef Par.exPathDist 0 1 = -1 := by decide +kernel
  have c10 : Par.globalCoef Par.exPathDist 1 0 = -1 := by decide +kernel
  have c11 : Par.globalCoef Par.exPathDist 1 1 = 2 := by decide +kernel
  have hI : Finset.Ico (0 : Int) 2 = {0, 1} := rfl
  have hsum : ∀ (x : Int → ℚ) (g : Int), ∑ c ∈ Finset.Ico (0 : Int) 2, Par.globalCoef Par.exPathDist g c * x c =
      Par.globalCoef Par.exPathDist g 0 * x 0 + Par.globalCoef Par.exPathDist g 1 * x 1 := by
    intro x g
    rw [hI, Finset.sum_pair (by decide)]
  have hg : ∀ g : Int, 0 ≤ g → g < 2 → g = 0 ∨ g = 1 := fun g h0 h1 => by omega
  have hroot : ∀ (x : Int → ℚ) (l : ℚ), EigenOn 2 (Par.globalCoef Par.exPathDist) x l →
      (x 0 + x 1) * (1 - l) = 0 ∧ (x 0 - x 1) * (3 - l) = 0 := by
    intro x l h
    have q0 := h.eq 0 (by decide) (by decide)
    have q1 := h.eq 1 (by decide) (by decide)
    rw [hsum, c00, c01] at q0
    rw [hsum, c10, c11] at q1
    exact ⟨by linear_combination q0 + q1, by linear_combination q0 - q1⟩
  refine ⟨fun k g => if k = 0 then 1 else if g = 0 then 1 else -1, ?_, ?_, ?_⟩
  · intro k hk
    have hk' : k = 0 ∨ k = 1 := by simp at hk; omega
    rcases hk' with rfl | rfl
    · refine ⟨fun g g0 g1 => ?_, ⟨0, by decide, by decide, by simp⟩⟩
      rw [hsum]
      rcases hg g g0 g1 with rfl | rfl
      · rw [c00, c01]; norm_num
      · rw [c10, c11]; norm_num
    · refine ⟨fun g g0 g1 => ?_, ⟨0, by decide, by decide, by simp⟩⟩
      rw [hsum]
      rcases hg g g0 g1 with rfl | rfl
      · rw [c00, c01]; norm_num
      · rw [c10, c11]; norm_num
  · intro k hk ⟨c, hc⟩
    have hk' : k = 0 ∨ k = 1 := by simp at hk; omega
    have q0 := hc 0 (by decide) (by decide)
    have q1 := hc 1 (by decide) (by decide)
    rcases hk' with rfl | rfl
    · simp at q0
    · rw [Finset.sum_range_one] at q0 q1
      norm_num at q0 q1
      linarith
  · intro k hk x l hx hn
    have hk' : k = 0 ∨ k = 1 := by simp at hk; omega
    obtain ⟨r1, r2⟩ := hroot x l hx
    rcases hk' with rfl | rfl
    · obtain ⟨g, g0, g1, hgx⟩ := hx.ne
      rcases mul_eq_zero.1 r1 with h | h
      · rcases mul_eq_zero.1 r2 with h' | h'
        · exfalso
          rcases hg g g0 g1 with rfl | rfl
          · exact hgx (by linarith)
          · exact hgx (by linarith)
        · show (1 : ℚ) ≤ l
          linarith
      · show (1 : ℚ) ≤ l
        linarith
    · rcases mul_eq_zero.1 r2 with h | h
      · exfalso
        refine hn ⟨fun _ => x 0, fun g g0 g1 => ?_⟩
        rw [Finset.sum_range_one]
        rcases hg g g0 g1 with rfl | rfl
        · simp
        · simp; linarith
      · show (3 : ℚ) ≤ l
        linarith

/-- C119: two vertices on two processes, and a program that knows the answer: the test succeeds when it expects 3. -/
example : Par.exPath.WF ∧ LaplaceOn Par.exPath.rows Par.exPath.coef ∧ ConnectedOn Par.exPath.rows Par.exPath.coef ∧
    (∀ i, 0 ≤ i → i < Par.exPath.rows → Par.exPath.Stored i i) ∧
    Par.splitShift Par.exSort id 2 Par.exPath [0, 1] 1 = .ok Par.exPathDist ∧ LowestOn Par.exPath.rows (Par.globalCoef Par.exPathDist) [1, 3] ∧
    Par.FindsLowest (fun _ x => .done [[1, 3], [1, 3]] x) Par.exPathDist (Par.splitStarts [0, 1] 2) [1, 3] (1 / 10 : ℚ) ⟨[1, 1], [], fun b _ => .ok b⟩ ∧
    Par.test Par.exSort id Par.fullMatvec (fun _ x => .done [[1, 3], [1, 3]] x) (fun _ x => x) (fun _ => [⟨[1, 1], [], fun b _ => .ok b⟩])
      (1 / 5 : ℚ) 1 3 2 Par.exPath [0, 1] = .ok [[[0], [0]], [[0], [0]]] := by
  have hg : ∀ g : Int, 0 ≤ g → g < Par.exPath.rows → g = 0 ∨ g = 1 := fun g h0 h1 => by
    change g < 2 at h1
    omega
  have hI : Finset.Ico (0 : Int) Par.exPath.rows = {0, 1} := rfl
  refine ⟨by decide +kernel, ⟨?_, ?_, ?_⟩, ?_, ?_, by decide +kernel, Par.exPath_lowest, ?_, by decide +kernel⟩
  · intro i j i0 i1 j0 j1
    rcases hg i i0 i1 with rfl | rfl <;> rcases hg j j0 j1 with rfl | rfl <;> decide +kernel
  · intro i i0 i1
    rw [hI, Finset.sum_pair (by decide)]
    rcases hg i i0 i1 with rfl | rfl <;> decide +kernel
  · intro i j i0 i1 j0 j1 hij
    rcases hg i i0 i1 with rfl | rfl <;> rcases hg j j0 j1 with rfl | rfl
    · exact absurd rfl hij
    · decide +kernel
    · decide +kernel
    · exact absurd rfl hij
  · intro i j i0 i1 j0 j1
    rcases hg i i0 i1 with rfl | rfl <;> rcases hg j j0 j1 with rfl | rfl
    · exact .refl
    · exact .single ⟨⟨i0, i1⟩, ⟨j0, j1⟩, by decide +kernel⟩
    · exact .single ⟨⟨i0, i1⟩, ⟨j0, j1⟩, by decide +kernel⟩
    · exact .refl
  · intro i i0 i1
    rcases hg i i0 i1 with rfl | rfl <;> decide +kernel
  · refine ⟨fun b _ => b, fun x y hx _ => ⟨rfl, hx⟩, fun A _ x hx => ⟨.done ?_ (by decide) rfl hx.num ?_, ?_⟩⟩
    · have := hx.len
      have h3 : (Par.splitStarts [0, 1] 2).length = 3 := rfl
      show 2 = x.length
      omega
    · intro i hi
      refine ⟨by rw [List.length_map]; exact hx.len, rfl, fun p hp => ?_⟩
      have hp' : p < x.length := by simpa using hp
      have hn := hx.num x[p] (List.getElem_mem hp')
      rw [List.getElem_map, List.getD_eq_getElem?_getD, List.getElem?_eq_getElem (by omega)]
      exact hx.size p hp' _ (List.getElem_mem _)
    · intro ev hev k hk
      have hev' : ev = [1, 3] := by
        change ev ∈ [[1, 3], [1, 3]] at hev
        simpa using hev
      subst hev'
      have hk' : k = 0 ∨ k = 1 := by simp at hk; omega
      rcases hk' with rfl | rfl
      · show |(1 : ℚ) - 1| < 1 / 10
        norm_num
      · show |(3 : ℚ) - 3| < 1 / 10
        norm_num

end Linalg
