import Verif.Spec.Sort
import Verif.Spec.Csr
import Verif.Proof.Sort
import Verif.Proof.Filter

/-!
# Sorting the rows of a sparse matrix (C05)
-/

namespace Linalg
open Cpp

variable {α R : Type}

/-- The rows after sorting, given the sorting function. -/
theorem sortIndices_ofRows (srt : Csr.Sorter) (hs : IsSort srt) (n : Int) (rs : List (List (Int × α))) :
    ∃ rs' : List (List (Int × α)), Csr.sortIndices srt (Csr.ofRows n rs) = .ok (Csr.ofRows n rs') ∧
      rs'.length = rs.length ∧
      ∀ (k : Nat) (h : k < rs.length) (h' : k < rs'.length),
        rs'[k].Perm rs[k] ∧ rs'[k].Pairwise (fun a b => a.1 ≤ b.1) := by
  let A := Csr.ofRows n rs
  let key : Int → Int := fun a => A.indices.getD a.toNat 0
  let S : List Int → List Int := srt (fun a b => decide (key a < key b))
  let segs := segsFrom 0 rs
  let look : Int → Option (Int × α) := fun p => rs.flatten[p.toNat]?
  have hS : ∀ l, (S l).Perm l ∧ (S l).Pairwise (fun a b => key a ≤ key b) := fun l => hs key l
  have hsl : segs.length = rs.length := segsFrom_length 0 rs
  have hsegs : segs.map (fun seg => seg.map look) = rs.map (fun r => r.map some) := by
    have := segsFrom_look [] rs
    simpa using this
  have hlen : segs.map List.length = rs.map List.length := segsFrom_lengths 0 rs
  -- state after `i` rows
  let st : Nat → List (List Int) := fun i => (segs.take i).map S ++ segs.drop i
  have hst_len : ∀ i, (st i).map List.length = rs.map List.length := by
    intro i
    simp only [st, List.map_append, List.map_map]
    rw [← hlen]
    have : List.map (List.length ∘ S) (segs.take i) = List.map List.length (segs.take i) := by
      apply List.map_congr_left
      intro x _
      exact (hS x).1.length_eq
    rw [this, ← List.map_append, List.take_append_drop]
  have hst_l : ∀ i, (st i).length = rs.length := fun i => by
    have := congrArg List.length (hst_len i); simpa using this
  have hmem : ∀ x ∈ (segs.map S).flatten, ∃ e, look x = some e := by
    intro x hx
    obtain ⟨l, hl, hxl⟩ := List.mem_flatten.mp hx
    obtain ⟨seg, hseg, rfl⟩ := List.mem_map.mp hl
    have hx' : x ∈ seg := (hS seg).1.mem_iff.mp hxl
    have : look x ∈ (segs.map (fun seg => seg.map look)).flatten :=
      List.mem_flatten.mpr ⟨seg.map look, List.mem_map.mpr ⟨seg, hseg, rfl⟩, List.mem_map.mpr ⟨x, hx', rfl⟩⟩
    rw [hsegs] at this
    obtain ⟨l, hl, hxl⟩ := List.mem_flatten.mp this
    obtain ⟨r, hr, rfl⟩ := List.mem_map.mp hl
    obtain ⟨e, _, he⟩ := List.mem_map.mp hxl
    exact ⟨e, he.symm⟩
  have hlookrd : ∀ x ∈ (segs.map S).flatten, 0 ≤ x := by
    intro x hx
    obtain ⟨l, hl, hxl⟩ := List.mem_flatten.mp hx
    obtain ⟨seg, hseg, rfl⟩ := List.mem_map.mp hl
    have hx' : x ∈ segs.flatten := List.mem_flatten.mpr ⟨seg, hseg, (hS seg).1.mem_iff.mp hxl⟩
    rw [show segs.flatten = iota rs.flatten.length from segsFrom_flatten_zero rs, mem_iota] at hx'
    exact hx'.1
  have hrdi : ∀ x ∈ (segs.map S).flatten, ∃ e, look x = some e ∧ rd A.indices x = .ok e.1 := by
    intro x hx
    obtain ⟨e, he⟩ := hmem x hx
    refine ⟨e, he, ?_⟩
    rw [rd_eq_ok]
    refine ⟨hlookrd x hx, ?_⟩
    simp only [A, Csr.ofRows, List.getElem?_map]
    simp only [look] at he
    rw [he]; rfl
  have hrdd : ∀ x ∈ (segs.map S).flatten, ∃ e, look x = some e ∧ rd A.data x = .ok e.2 := by
    intro x hx
    obtain ⟨e, he⟩ := hmem x hx
    refine ⟨e, he, ?_⟩
    rw [rd_eq_ok]
    refine ⟨hlookrd x hx, ?_⟩
    simp only [A, Csr.ofRows, List.getElem?_map]
    simp only [look] at he
    rw [he]; rfl
  -- the loop
  have hloop : forUp 0 A.rows (iota A.indices.length) (fun i perm => do
      let start ← rd A.indptr i
      let stop ← rd A.indptr (i + 1)
      let seg ← Csr.slice perm start stop
      let _ ← seg.foldlM (fun (_ : Int) p => rd A.indices p) 0
      let sorted := srt (fun a b => A.indices.getD a.toNat 0 < A.indices.getD b.toNat 0) seg
      .ok (perm.take start.toNat ++ sorted ++ perm.drop stop.toNat)) = .ok (segs.map S).flatten := by
    have hrows : A.rows = (rs.length : Int) := rfl
    have hil : A.indices.length = rs.flatten.length := by simp only [A, Csr.ofRows, List.length_map]
    rw [hrows, hil, ← segsFrom_flatten_zero rs]
    obtain ⟨s', h1, h2⟩ := forUp_inv_nat (n := rs.length) (f := fun i perm => do
      let start ← rd A.indptr i
      let stop ← rd A.indptr (i + 1)
      let seg ← Csr.slice perm start stop
      let _ ← seg.foldlM (fun (_ : Int) p => rd A.indices p) 0
      let sorted := srt (fun a b => A.indices.getD a.toNat 0 < A.indices.getD b.toNat 0) seg
      .ok (perm.take start.toNat ++ sorted ++ perm.drop stop.toNat))
      (fun i s => s = (st i).flatten) (s := (segsFrom 0 rs).flatten) (by simp [st, segs]) (by
        rintro i s hi rfl
        have hi1 : i < (st i).length := by rw [hst_l]; exact hi
        have hget : (st i)[i] = segs[i]'(by omega) := by
          simp only [st]
          rw [List.getElem_append_right (by simp)]
          simp [Nat.min_eq_left (show i ≤ segs.length by omega)]
        have hle : (st i)[i].length = rs[i].length := by
          have : ((st i).map List.length)[i]'(by simpa using hi1) = (rs.map List.length)[i]'(by simpa using hi) := by
            simp only [hst_len i]
          simpa using this
        have hpt : ((st i).take i).flatten.length = (rs.take i).flatten.length := by
          rw [List.length_flatten, List.length_flatten, List.map_take, List.map_take, hst_len i]
        have p1 : rd A.indptr (i : Int) = _ := rd_ptrs rs i hi.le
        have p2 : rd A.indptr ((i : Int) + 1) = _ := rd_ptrs_succ rs i hi
        rw [p1, p2]
        simp only [ok_bind]
        have hslice := slice_flatten (st i) i hi1
        rw [hpt, hle] at hslice
        rw [hslice]
        simp only [ok_bind]
        obtain ⟨w, hw⟩ := foldlM_ok_of (l := (st i)[i]) (f := fun (_ : Int) p => rd A.indices p) (by
          intro x hx s
          rw [hget] at hx
          have hx' : x ∈ (segs.map S).flatten :=
            List.mem_flatten.mpr ⟨S (segs[i]'(by omega)), List.mem_map.mpr ⟨_, List.getElem_mem _, rfl⟩,
              (hS _).1.mem_iff.mpr hx⟩
          obtain ⟨e, _, he⟩ := hrdi x hx'
          exact ⟨_, he⟩) 0
        rw [hw]
        simp only [ok_bind]
        refine ⟨_, rfl, ?_⟩
        rw [Int.toNat_natCast, Int.toNat_natCast]
        have hrep := replace_flatten (st i) i hi1 (S (st i)[i])
        rw [hpt, hle] at hrep
        refine Eq.trans hrep ?_
        congr 1
        rw [hget]
        simp only [st]
        rw [List.take_left' (by simp; omega), List.take_succ_eq_append_getElem (by omega), List.map_append,
          List.append_assoc]
        congr 1
        simp only [List.map_cons, List.map_nil, List.singleton_append, List.cons.injEq, true_and]
        rw [List.drop_append]
        simp [Nat.min_eq_left (show i ≤ segs.length by omega)])
    rw [h1, h2]
    simp only [st]
    rw [List.take_of_length_le (by omega), List.drop_of_length_le (by omega), List.append_nil]
  let rs' := segs.map (fun seg => (S seg).filterMap look)
  have hrow : ∀ (k : Nat) (h : k < rs.length) (h' : k < rs'.length),
      rs'[k].Perm rs[k] ∧ rs'[k].Pairwise (fun a b => a.1 ≤ b.1) := by
    intro k h h'
    have hk : k < segs.length := by omega
    have e1 : rs'[k] = (S segs[k]).filterMap look := by simp [rs']
    have e2 : segs[k].map look = rs[k].map some := by
      have : (segs.map (fun seg => seg.map look))[k]'(by simpa using hk)
        = (rs.map (fun r => r.map some))[k]'(by simpa using h) := by simp only [hsegs]
      simpa using this
    have e3 : segs[k].filterMap look = rs[k] := by
      have : segs[k].filterMap look = (segs[k].map look).filterMap id := by
        rw [List.filterMap_map]; rfl
      rw [this, e2, List.filterMap_map]
      exact List.filterMap_some
    constructor
    · rw [e1, ← e3]
      exact (hS _).1.filterMap _
    · rw [e1, List.pairwise_filterMap]
      refine (hS segs[k]).2.imp ?_
      intro a b hab x hx y hy
      have hk : ∀ (a : Int) (x : Int × α), look a = some x → key a = x.1 := by
        intro a x hx
        simp only [key, A, Csr.ofRows]
        simp only [look] at hx
        rw [List.getD_eq_getElem?_getD, List.getElem?_map, hx]; rfl
      rw [← hk a x hx, ← hk b y hy]; exact hab
  refine ⟨rs', ?_, by simp [rs', hsl], hrow⟩
  unfold Csr.sortIndices
  have hloop' := hloop
  simp only [A] at hloop'
  simp only
  rw [hloop', ok_bind, mapM_filterMap (g := Prod.fst) hrdi, ok_bind, mapM_filterMap (g := Prod.snd) hrdd, ok_bind]
  have hl : rs'.map List.length = rs.map List.length := by
    apply List.ext_getElem
    · simp [rs', hsl]
    · intro k h1 h2
      have := (hrow k (by simpa using h2) (by simpa using h1)).1.length_eq
      simpa using this
  have hfl : (segs.map S).flatten.filterMap look = rs'.flatten := by
    simp only [rs', List.filterMap_flatten, List.map_map]
    rfl
  rw [hfl]
  simp only [Csr.ofRows]
  rw [ptrs_congr hl, show rs'.length = rs.length by simp [rs', hsl]]

/-- **C05.**  For every outcome allowed to `std::sort`, `SortIndices()` returns normally on a well-formed matrix and
leaves a well-formed matrix of the same shape and row pointers (hence row sizes and nnz), in which every row
is a rearrangement of the (column, value) pairs it had before, in non-decreasing column order. -/
theorem C05_sortIndices (srt : Csr.Sorter) (hs : IsSort srt) (A : Csr α) (hA : A.WF) :
    ∃ B, A.sortIndices srt = .ok B ∧ B.WF ∧ B.rows = A.rows ∧ B.cols = A.cols ∧ B.indptr = A.indptr ∧
      B.nnz = A.nnz ∧
      ∀ i, (B.row i).Perm (A.row i) ∧ (B.row i).Pairwise (fun a b => a.1 ≤ b.1) := by
  obtain ⟨n, rs, hn, hrs, rfl⟩ := hA.exists_rows
  obtain ⟨rs', h1, h2, h3⟩ := sortIndices_ofRows srt hs n rs
  have hl : rs'.map List.length = rs.map List.length := by
    apply List.ext_getElem
    · simpa using h2
    · intro k h1 h2
      have := (h3 k (by simpa using h2) (by simpa using h1)).1.length_eq
      simpa using this
  refine ⟨_, h1, Csr.wf_ofRows hn ?_, ?_, rfl, ptrs_congr hl, ?_, ?_⟩
  · intro r hr e he
    obtain ⟨k, hk, rfl⟩ := List.mem_iff_getElem.mp hr
    exact hrs rs[k] (List.getElem_mem (by omega)) e ((h3 k (by omega) hk).1.mem_iff.mp he)
  · simp [Csr.ofRows, h2]
  · simp only [Csr.nnz, Csr.ofRows, List.length_map, List.length_flatten, hl]
  · intro i
    by_cases h0 : 0 ≤ i
    · by_cases h4 : i < rs.length
      · obtain ⟨k, rfl⟩ : ∃ k : Nat, i = k := ⟨i.toNat, by omega⟩
        have hk : k < rs.length := by omega
        rw [Csr.row_ofRows n rs' k (by omega), Csr.row_ofRows n rs k hk]
        exact h3 k hk (by omega)
      · rw [Csr.row_ge _ (by simp [Csr.ofRows]) (by simp only [Csr.ofRows]; omega),
          Csr.row_ge _ (by simp [Csr.ofRows]) (by simp only [Csr.ofRows]; omega)]
        exact ⟨List.Perm.refl _, List.Pairwise.nil⟩
    · rw [Csr.row_neg _ (by omega), Csr.row_neg _ (by omega)]
      exact ⟨List.Perm.refl _, List.Pairwise.nil⟩

/-- **C05.**  Hence every coefficient and every product is unchanged. -/
theorem C05_sortIndices_coef [NonUnitalNonAssocSemiring R] (srt : Csr.Sorter) (hs : IsSort srt) (A : Csr R)
    (hA : A.WF) :
    ∃ B, A.sortIndices srt = .ok B ∧ (∀ i j, B.coef i j = A.coef i j) ∧
      (∀ x y : List R, (x.length : Int) = A.cols → (y.length : Int) = A.rows → B.mult x y = A.mult x y) := by
  obtain ⟨B, h1, hB, hr, hc, -, -, hrow⟩ := C05_sortIndices srt hs A hA
  have hcoef : ∀ i j, B.coef i j = A.coef i j := fun i j => rowCoef_perm (hrow i).1 j
  refine ⟨B, h1, hcoef, ?_⟩
  intro x y hx hy
  obtain ⟨n, rs, hn, hrs, rfl⟩ := hA.exists_rows
  obtain ⟨n', rs', hn', hrs', rfl⟩ := hB.exists_rows
  have hc' : n' = n := hc
  subst hc'
  have hr' : rs'.length = rs.length := by have : (rs'.length : Int) = rs.length := hr; omega
  have hy' : y.length = rs.length := by simpa [Csr.ofRows] using hy
  rw [mult_ofRows hrs x y hx hy', mult_ofRows hrs' x y hx (by omega), hr']
  congr 1
  apply List.map_congr_left
  intro k hk
  have hk := List.mem_range.mp hk
  apply Finset.sum_congr rfl
  intro j _
  have := hcoef (k : Int) j
  rw [coef_ofRows_getD _ _ (by omega), coef_ofRows_getD _ _ (by omega)] at this
  simp only [Int.toNat_natCast] at this
  rw [this]

/-- **C05.**  If no row stores a column twice, the sorted rows are strictly increasing and the result does not
depend on which sorting outcome was chosen. -/
theorem C05_sortIndices_unique (srt srt' : Csr.Sorter) (hs : IsSort srt) (hs' : IsSort srt') (A : Csr α)
    (hA : A.WF) (hd : A.NoDup) :
    A.sortIndices srt = A.sortIndices srt' ∧
      ∀ B, A.sortIndices srt = .ok B → ∀ i, (B.row i).Pairwise (fun a b => a.1 < b.1) := by
  obtain ⟨B, h1, hB, hr, hc, hp, -, hrow⟩ := C05_sortIndices srt hs A hA
  obtain ⟨B', h1', hB', hr', hc', hp', -, hrow'⟩ := C05_sortIndices srt' hs' A hA
  have key : ∀ i (X : List (Int × α)), X.Perm (A.row i) → X.Pairwise (fun a b => a.1 ≤ b.1) →
      X.Pairwise (fun a b => a.1 < b.1) := by
    intro i X hX hs
    have hn : (X.map Prod.fst).Nodup := (hX.map Prod.fst).nodup_iff.mpr (hd i)
    rw [List.Nodup, List.pairwise_map] at hn
    exact hs.imp₂ (fun a b h1 h2 => lt_of_le_of_ne h1 h2) hn
  constructor
  · rw [h1, h1']
    congr 1
    refine Csr.ext_rows hB hB' (by rw [hr, hr']) (by rw [hc, hc']) ?_
    intro i _ _
    refine List.Perm.eq_of_pairwise (le := fun a b => a.1 < b.1) ?_ (key i _ (hrow i).1 (hrow i).2)
      (key i _ (hrow' i).1 (hrow' i).2) ((hrow i).1.trans (hrow' i).1.symm)
    intro a b _ _ h1 h2
    omega
  · intro B2 h i
    rw [h1] at h
    cases h
    exact key i _ (hrow i).1 (hrow i).2

/-- A (stable) merge sort meets the contract of `std::sort`. -/
example : IsSort (fun lt l => l.mergeSort (fun a b => !lt b a)) := by
  intro key l
  refine ⟨List.mergeSort_perm _ _, ?_⟩
  have := List.pairwise_mergeSort (le := fun a b => !decide (key b < key a))
    (fun a b c h1 h2 => by simp at *; omega) (fun a b => by simp; omega) l
  refine this.imp ?_
  intro a b h
  simpa using h

/-- A concrete run: unsorted rows, an empty row and a duplicated column. -/
example : (⟨3, 3, [0, 3, 3, 5], [2, 0, 2, 1, 0], [1, 2, 3, 4, 5]⟩ : Csr Int).WF ∧
    Csr.sortIndices (fun lt l => l.insertionSort (fun a b => lt a b || !lt b a))
      (⟨3, 3, [0, 3, 3, 5], [2, 0, 2, 1, 0], [1, 2, 3, 4, 5]⟩ : Csr Int)
      = .ok ⟨3, 3, [0, 3, 3, 5], [0, 2, 2, 0, 1], [2, 1, 3, 5, 4]⟩ := by
  constructor <;> decide

end Linalg
